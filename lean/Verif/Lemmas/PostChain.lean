import Verif.Lemmas.PostNormal
import Verif.Lemmas.Loop
import Verif.Props.Variogram

/-! Lemmas on the chains of observations. -/

namespace Verif.PostNormal

theorem getD_set {α : Type} {l : List α} {i a : ℕ} {v d : α} (h : i < l.length) : (l.set i v).getD a d = if a = i then v else l.getD a d := by
  simp only [List.getD_eq_getElem?_getD, List.getElem?_set]
  by_cases e : i = a
  · subst e
    simp [h]
  · rw [if_neg e, if_neg (Ne.symm e)]

/-- A chain: `base` is its first and least member, and every other one is linked to a lower one that comes before it. -/
structure GoodChain (G : ℕ → ℕ → Prop) (base : ℕ) (c : List ℕ) : Prop where
  nodup : c.Nodup
  head : ∃ t, c = base :: t
  least : ∀ j ∈ c, base ≤ j
  link : ∀ p, 0 < p → p < c.length → ∃ q < p, c.getD q 0 < c.getD p 0 ∧ G (c.getD q 0) (c.getD p 0)

/-- The state while a chain is made; `D` are the chains that are done. -/
structure InChain (G : ℕ → ℕ → Prop) (n : ℕ) (D : List (List ℕ)) (base : ℕ) (map : List ℤ) (c : List ℕ) : Prop where
  len : map.length = n
  range : ∀ j, -1 ≤ map.getD j (-1) ∧ map.getD j (-1) ≤ D.length
  done : ∀ k < D.length, ∀ j, j ∈ D.getD k [] ↔ j < n ∧ map.getD j (-1) = k
  cur : ∀ j, j ∈ c ↔ j < n ∧ map.getD j (-1) = D.length
  good : GoodChain G base c
  seen : ∀ j < base, 0 ≤ map.getD j (-1)
  closed : ∀ k < D.length, ∀ i ∈ D.getD k [], ∀ j, i < j → j < n → G i j → 0 ≤ map.getD j (-1) ∧ map.getD j (-1) ≤ k

theorem InChain.push {G : ℕ → ℕ → Prop} {n : ℕ} {D : List (List ℕ)} {base : ℕ} {map : List ℤ} {c : List ℕ} (h : InChain G n D base map c)
    {i j : ℕ} (hi : i ∈ c) (hij : i < j) (hj : j < n) (hm : map.getD j (-1) < 0) (hG : G i j) :
    InChain G n D base (map.set j D.length) (c ++ [j]) := by
  have hl : j < map.length := by rw [h.len]; exact hj
  have hjc : j ∉ c := fun hc => by
    have := ((h.cur j).1 hc).2
    omega
  refine ⟨by simp [h.len], fun a => ?_, fun k hk a => ?_, fun a => ?_, ⟨?_, ?_, ?_, ?_⟩, fun a ha => ?_, fun k hk a ha b hab hb hg => ?_⟩
  · rw [getD_set hl]
    split_ifs
    · omega
    · exact h.range a
  · rw [getD_set hl, h.done k hk]
    split_ifs with e
    · subst e
      constructor
      · rintro ⟨h1, h2⟩
        omega
      · rintro ⟨h1, h2⟩
        omega
    · rfl
  · rw [getD_set hl, List.mem_append, List.mem_singleton, h.cur]
    split_ifs with e
    · subst e
      simp [hj]
    · simp [e]
  · rw [List.nodup_append]
    refine ⟨h.good.nodup, List.nodup_singleton _, fun a ha b hb => ?_⟩
    rw [List.mem_singleton] at hb
    rintro rfl
    exact hjc (hb ▸ ha)
  · obtain ⟨t, rfl⟩ := h.good.head
    exact ⟨t ++ [j], rfl⟩
  · intro a ha
    rw [List.mem_append, List.mem_singleton] at ha
    rcases ha with ha | rfl
    · exact h.good.least a ha
    · exact (h.good.least i hi).trans hij.le
  · intro p h0 hp
    have e : ∀ q < c.length, (c ++ [j]).getD q 0 = c.getD q 0 := by
      intro q hq
      rw [List.getD_eq_getElem?_getD, List.getElem?_append_left hq, List.getD_eq_getElem?_getD]
    rw [List.length_append, List.length_singleton] at hp
    rcases Nat.lt_succ_iff_lt_or_eq.1 hp with hp | rfl
    · obtain ⟨q, h1, h2⟩ := h.good.link p h0 hp
      refine ⟨q, h1, ?_⟩
      rwa [e q (by omega), e p hp]
    · obtain ⟨q, hq, rfl⟩ := List.getElem_of_mem hi
      refine ⟨q, hq, ?_⟩
      rw [e q hq]
      have e2 : (c ++ [j]).getD c.length 0 = j := by simp [List.getD_eq_getElem?_getD]
      have e3 : c.getD q 0 = c[q] := by simp [List.getD_eq_getElem?_getD, hq]
      rw [e2, e3]
      exact ⟨hij, hG⟩
  · rw [getD_set hl]
    split_ifs
    · omega
    · exact h.seen a ha
  · have h0 := h.closed k hk a ha b hab hb hg
    rw [getD_set hl, if_neg (by rintro rfl; omega)]
    exact h0

open Classical in
theorem chainStep_eq {vario : Variogram} {pos : List Geo.Pt} {lc : List ℝ} {c : ℕ → ℕ → ℝ}
    (hc : ∀ i < pos.length, ∀ j < pos.length, chainCorr vario pos lc i j = .ok (c i j)) {i j : ℕ} (hi : i < pos.length) (hj : j < pos.length)
    (no : ℤ) {st : List ℤ × List ℕ} (hl : st.1.length = pos.length) :
    chainStep vario pos lc no i j st =
      .ok (if st.1.getD j (-1) < 0 ∧ c i j > 0.999 then (st.1.set j no, st.2 ++ [j]) else st) := by
  unfold chainStep
  rw [rd_getD' (-1) (by omega)]
  simp only [Res.monad_bind_eq, Res.bind_ok]
  by_cases h1 : st.1.getD j (-1) < 0
  · rw [if_pos h1, hc i hi j hj]
    simp only [Res.bind_ok]
    by_cases h2 : c i j > 0.999
    · rw [if_pos h2, wr_ok (by omega), if_pos ⟨h1, h2⟩]
      rfl
    · rw [if_neg h2, if_neg (fun h => h2 h.2)]
  · rw [if_neg h1, if_neg (fun h => h1 h.1)]

/-- The loop over the later observations. -/
theorem chainStep_loop {vario : Variogram} {pos : List Geo.Pt} {lc : List ℝ} {c : ℕ → ℕ → ℝ}
    (hc : ∀ i < pos.length, ∀ j < pos.length, chainCorr vario pos lc i j = .ok (c i j)) {D : List (List ℕ)} {base : ℕ} {map : List ℤ} {ch : List ℕ}
    (h : InChain (fun i j => c i j > 0.999) pos.length D base map ch) {i : ℕ} (hi : i ∈ ch) :
    ∃ map' new, forRange (i + 1) pos.length (chainStep vario pos lc D.length i) (map, ch) = .ok (map', ch ++ new) ∧
      InChain (fun i j => c i j > 0.999) pos.length D base map' (ch ++ new) ∧ (∀ a, 0 ≤ map.getD a (-1) → 0 ≤ map'.getD a (-1)) ∧
      ∀ j, i < j → j < pos.length → c i j > 0.999 → 0 ≤ map'.getD j (-1) := by
  have hin : i < pos.length := ((h.cur i).1 hi).1
  obtain ⟨⟨map', ch'⟩, e, new, h1, h2, h3, h4⟩ := forRange_sat (lo := i + 1) (hi := pos.length) (body := chainStep vario pos lc D.length i)
    (s := (map, ch)) (fun j (st : List ℤ × List ℕ) => ∃ new, st.2 = ch ++ new ∧ InChain (fun i j => c i j > 0.999) pos.length D base st.1 st.2 ∧
      (∀ a, 0 ≤ map.getD a (-1) → 0 ≤ st.1.getD a (-1)) ∧ ∀ a, i < a → a < j → c i a > 0.999 → 0 ≤ st.1.getD a (-1)) (by omega)
    ⟨[], by simp, h, fun a ha => ha, fun a h1 h2 => absurd h2 (by omega)⟩ (by
      rintro j ⟨m, cc⟩ hj1 hj2 ⟨new, h1, h2, h3, h4⟩
      simp only at h1 h2 h3 h4
      rw [chainStep_eq hc hin hj2 _ h2.len]
      refine ⟨_, rfl, ?_⟩
      simp only
      split_ifs with hcond
      · have hl : j < m.length := by rw [h2.len]; exact hj2
        refine ⟨new ++ [j], by simp [h1], h2.push (by rw [h1]; exact List.mem_append_left _ hi) (by omega) hj2 hcond.1 hcond.2, fun a ha => ?_,
          fun a ha1 ha2 hg => ?_⟩
        · simp only
          rw [getD_set hl]
          split_ifs
          · omega
          · exact h3 a ha
        · simp only
          rw [getD_set hl]
          split_ifs with e
          · omega
          · exact h4 a ha1 (by omega) hg
      · refine ⟨new, h1, h2, h3, fun a ha1 ha2 hg => ?_⟩
        rcases Nat.lt_succ_iff_lt_or_eq.1 ha2 with h | rfl
        · exact h4 a ha1 h hg
        · by_contra h0
          exact hcond ⟨not_le.1 h0, hg⟩)
  simp only at h1 h2 h3 h4
  subst h1
  exact ⟨map', new, e, h2, h3, h4⟩

theorem nodup_le {n : ℕ} {c : List ℕ} (h : c.Nodup) (hn : ∀ j ∈ c, j < n) : c.length ≤ n := by
  have h1 := List.toFinset_card_of_nodup h
  have h2 : c.toFinset ⊆ Finset.range n := fun j hj => Finset.mem_range.2 (hn j (List.mem_toFinset.1 hj))
  have h3 := Finset.card_le_card h2
  rw [Finset.card_range] at h3
  omega

/-- The loop over the members of the chain. -/
theorem curStep_loop {vario : Variogram} {pos : List Geo.Pt} {lc : List ℝ} {c : ℕ → ℕ → ℝ}
    (hc : ∀ i < pos.length, ∀ j < pos.length, chainCorr vario pos lc i j = .ok (c i j)) {D : List (List ℕ)} {base : ℕ} :
    ∀ (f cur : ℕ) (map : List ℤ) (ch : List ℕ), pos.length - cur = f → InChain (fun i j => c i j > 0.999) pos.length D base map ch →
      (∀ p < cur, p < ch.length → ∀ j, ch.getD p 0 < j → j < pos.length → c (ch.getD p 0) j > 0.999 → 0 ≤ map.getD j (-1)) → cur ≤ ch.length →
      ∃ cur' map' ch', untilLoop (curStep vario pos lc D.length) (cur, map, ch) = .ok ((), cur', map', ch') ∧
        InChain (fun i j => c i j > 0.999) pos.length D base map' ch' ∧
        ∀ i ∈ ch', ∀ j, i < j → j < pos.length → c i j > 0.999 → 0 ≤ map'.getD j (-1) := by
  intro f
  induction f with
  | zero =>
    intro cur map ch hf h hcl hle
    have hn := nodup_le h.good.nodup fun j hj => ((h.cur j).1 hj).1
    rw [untilLoop_unfold]
    unfold curStep
    rw [if_neg (by simp only; omega)]
    refine ⟨cur, map, ch, rfl, h, fun i hi j hij hj hg => ?_⟩
    obtain ⟨p, hp, rfl⟩ := List.getElem_of_mem hi
    have e3 : ch.getD p 0 = ch[p] := by simp [List.getD_eq_getElem?_getD, hp]
    exact hcl p (by omega) hp j (by rw [e3]; exact hij) hj (by rw [e3]; exact hg)
  | succ f ih =>
    intro cur map ch hf h hcl hle
    have hn := nodup_le h.good.nodup fun j hj => ((h.cur j).1 hj).1
    rw [untilLoop_unfold]
    by_cases hlt : cur < ch.length
    · have hmem : ch.getD cur 0 ∈ ch := by
        rw [show ch.getD cur 0 = ch[cur] by simp [List.getD_eq_getElem?_getD, hlt]]
        exact List.getElem_mem hlt
      obtain ⟨map', new, e, h1, h2, h3⟩ := chainStep_loop hc h hmem
      have es : curStep vario pos lc D.length (cur, map, ch) = .ok (none, cur + 1, map', ch ++ new) := by
        unfold curStep
        rw [if_pos hlt]
        simp only
        rw [rd_getD' 0 hlt]
        simp only [Res.monad_bind_eq, Res.bind_ok]
        rw [e]
        rfl
      rw [es]
      simp only [Res.bind_ok]
      refine ih (cur + 1) map' (ch ++ new) (by omega) h1 (fun p hp hp2 j hj1 hj2 hg => ?_) (by rw [List.length_append]; omega)
      have ee : (ch ++ new).getD p 0 = ch.getD p 0 := by
        rw [List.getD_eq_getElem?_getD, List.getElem?_append_left (by omega), List.getD_eq_getElem?_getD]
      rw [ee] at hj1 hg
      rcases Nat.lt_succ_iff_lt_or_eq.1 hp with hp | rfl
      · exact h2 j (hcl p hp (by omega) j hj1 hj2 hg)
      · exact h3 j hj1 hj2 hg
    · unfold curStep
      rw [if_neg hlt]
      refine ⟨cur, map, ch, rfl, h, fun i hi j hij hj hg => ?_⟩
      obtain ⟨p, hp, rfl⟩ := List.getElem_of_mem hi
      have e3 : ch.getD p 0 = ch[p] := by simp [List.getD_eq_getElem?_getD, hp]
      exact hcl p (by omega) hp j (by rw [e3]; exact hij) hj (by rw [e3]; exact hg)

/-- The state between two chains: all the observations below `base` are in one. -/
structure Between (G : ℕ → ℕ → Prop) (n : ℕ) (base : ℕ) (map : List ℤ) (D : List (List ℕ)) : Prop where
  len : map.length = n
  range : ∀ j, -1 ≤ map.getD j (-1) ∧ map.getD j (-1) < D.length
  done : ∀ k < D.length, ∀ j, j ∈ D.getD k [] ↔ j < n ∧ map.getD j (-1) = k
  seen : ∀ j < base, 0 ≤ map.getD j (-1)
  closed : ∀ k < D.length, ∀ i ∈ D.getD k [], ∀ j, i < j → j < n → G i j → 0 ≤ map.getD j (-1) ∧ map.getD j (-1) ≤ k
  good : ∀ k < D.length, ∃ b < base, GoodChain G b (D.getD k [])
  sorted : (D.map (·.getD 0 0)).Pairwise (· < ·)

theorem baseStep_ok {vario : Variogram} {pos : List Geo.Pt} {lc : List ℝ} {c : ℕ → ℕ → ℝ}
    (hc : ∀ i < pos.length, ∀ j < pos.length, chainCorr vario pos lc i j = .ok (c i j)) {base : ℕ} (hb : base < pos.length) {map : List ℤ}
    {D : List (List ℕ)} (h : Between (fun i j => c i j > 0.999) pos.length base map D) :
    ∃ map' D', baseStep vario pos lc base (map, D, (D.length : ℤ)) = .ok (map', D', (D'.length : ℤ)) ∧
      Between (fun i j => c i j > 0.999) pos.length (base + 1) map' D' := by
  have hl : base < map.length := by rw [h.len]; exact hb
  unfold baseStep
  simp only
  rw [rd_getD' (-1) hl]
  simp only [Res.monad_bind_eq, Res.bind_ok]
  by_cases hm : map.getD base (-1) < 0
  · rw [if_pos hm, wr_ok hl]
    simp only [Res.bind_ok]
    have hin : InChain (fun i j => c i j > 0.999) pos.length D base (map.set base D.length) [base] := by
      refine ⟨by simp [h.len], fun a => ?_, fun k hk a => ?_, fun a => ?_, ⟨List.nodup_singleton _, ⟨[], rfl⟩, by simp, ?_⟩, fun a ha => ?_,
        fun k hk a ha b hab hb hg => ?_⟩
      · rw [getD_set hl]
        have := h.range a
        split_ifs
        · omega
        · omega
      · rw [getD_set hl, h.done k hk]
        split_ifs with e
        · subst e
          constructor
          · rintro ⟨h1, h2⟩
            omega
          · rintro ⟨h1, h2⟩
            omega
        · rfl
      · rw [getD_set hl, List.mem_singleton]
        split_ifs with e
        · subst e
          simp [hb]
        · have := h.range a
          constructor
          · exact fun h => absurd h e
          · rintro ⟨h1, h2⟩
            omega
      · intro p h0 hp
        simp at hp
        omega
      · rw [getD_set hl, if_neg (by omega)]
        exact h.seen a ha
      · have h0 := h.closed k hk a ha b hab hb hg
        rw [getD_set hl, if_neg (by rintro rfl; omega)]
        exact h0
    obtain ⟨cur', map', ch', e, h1, h2⟩ := curStep_loop hc (pos.length - 0) 0 _ _ rfl hin (fun p hp => absurd hp (Nat.not_lt_zero _)) (Nat.zero_le _)
    rw [e]
    simp only [Res.bind_ok]
    refine ⟨map', D ++ [ch'], by simp, h1.len, fun j => ?_, fun k hk j => ?_, fun j hj => ?_, fun k hk i hi j hij hj hg => ?_, fun k hk => ?_, ?_⟩
    · have := h1.range j
      simp only [List.length_append, List.length_singleton]
      omega
    · rw [List.length_append, List.length_singleton] at hk
      rcases Nat.lt_succ_iff_lt_or_eq.1 hk with hk | rfl
      · rw [List.getD_eq_getElem?_getD, List.getElem?_append_left hk, ← List.getD_eq_getElem?_getD]
        exact h1.done k hk j
      · rw [List.getD_eq_getElem?_getD, List.getElem?_append_right le_rfl]
        simpa using h1.cur j
    · rcases Nat.lt_succ_iff_lt_or_eq.1 hj with hj | rfl
      · exact h1.seen j hj
      · obtain ⟨t, ht⟩ := h1.good.head
        have := ((h1.cur j).1 (by rw [ht]; exact List.mem_cons_self)).2
        omega
    · rw [List.length_append, List.length_singleton] at hk
      rcases Nat.lt_succ_iff_lt_or_eq.1 hk with hk | rfl
      · rw [List.getD_eq_getElem?_getD, List.getElem?_append_left hk, ← List.getD_eq_getElem?_getD] at hi
        exact h1.closed k hk i hi j hij hj hg
      · rw [List.getD_eq_getElem?_getD, List.getElem?_append_right le_rfl] at hi
        exact ⟨h2 i (by simpa using hi) j hij hj hg, (h1.range j).2⟩
    · rw [List.length_append, List.length_singleton] at hk
      rcases Nat.lt_succ_iff_lt_or_eq.1 hk with hk | rfl
      · rw [List.getD_eq_getElem?_getD, List.getElem?_append_left hk, ← List.getD_eq_getElem?_getD]
        obtain ⟨b, hb, hg⟩ := h.good k hk
        exact ⟨b, by omega, hg⟩
      · rw [List.getD_eq_getElem?_getD, List.getElem?_append_right le_rfl]
        refine ⟨base, by omega, ?_⟩
        simpa using h1.good
    · rw [List.map_append, List.pairwise_append]
      refine ⟨h.sorted, by simp, fun a ha b hb' => ?_⟩
      obtain ⟨ch, hch, rfl⟩ := List.mem_map.1 ha
      simp only [List.map_cons, List.map_nil, List.mem_singleton] at hb'
      obtain ⟨k, hk, rfl⟩ := List.getElem_of_mem hch
      obtain ⟨b0, hb0, hg0⟩ := h.good k hk
      rw [show D.getD k [] = D[k] by simp [List.getD_eq_getElem?_getD, hk]] at hg0
      obtain ⟨t, ht⟩ := hg0.head
      obtain ⟨t', ht'⟩ := h1.good.head
      rw [hb', ht', ht]
      simpa using hb0
  · rw [if_neg hm]
    refine ⟨map, D, rfl, h.len, h.range, h.done, fun j hj => ?_, h.closed, fun k hk => ?_, h.sorted⟩
    · rcases Nat.lt_succ_iff_lt_or_eq.1 hj with hj | rfl
      · exact h.seen j hj
      · exact not_lt.1 hm
    · obtain ⟨b, hb, hg⟩ := h.good k hk
      exact ⟨b, by omega, hg⟩

theorem identify_between {vario : Variogram} {pos : List Geo.Pt} {lc : List ℝ} {c : ℕ → ℕ → ℝ}
    (hc : ∀ i < pos.length, ∀ j < pos.length, chainCorr vario pos lc i j = .ok (c i j)) :
    ∃ map D, identify vario pos lc = .ok (map, D) ∧ Between (fun i j => c i j > 0.999) pos.length pos.length map D := by
  have h0 : Between (fun i j => c i j > 0.999) pos.length 0 (List.replicate pos.length (-1)) [] := by
    refine ⟨by simp, fun j => ?_, fun k hk => absurd hk (by simp), fun j hj => absurd hj (by simp), fun k hk => absurd hk (by simp),
      fun k hk => absurd hk (by simp), by simp⟩
    rw [List.getD_eq_getElem?_getD, List.getElem?_replicate]
    split_ifs <;> simp
  obtain ⟨⟨map, D, no⟩, e, h1, h2⟩ := forRange_sat (lo := 0) (hi := pos.length) (body := baseStep vario pos lc)
    (s := (List.replicate pos.length (-1), [], 0)) (fun b (st : List ℤ × List (List ℕ) × ℤ) => st.2.2 = (st.2.1.length : ℤ) ∧
      Between (fun i j => c i j > 0.999) pos.length b st.1 st.2.1) (Nat.zero_le _) ⟨rfl, h0⟩ (by
      rintro b ⟨m, D, no⟩ _ hb ⟨h1, h2⟩
      simp only at h1 h2
      subst h1
      obtain ⟨m', D', e, h3⟩ := baseStep_ok hc hb h2
      exact ⟨_, e, rfl, h3⟩)
  refine ⟨map, D, ?_, h2⟩
  unfold identify
  rw [e]
  rfl

/-- The place of an observation. -/
noncomputable def place (pos : List Geo.Pt) (i : ℕ) : Geo.Pt := pos.getD i ⟨0, 0, 0⟩

/-- The correlation between two places. -/
noncomputable def corrAt (vario : Variogram) (p q : Geo.Pt) : ℝ := vario.corr2 (p.x - q.x) (p.y - q.y)

theorem chainCorr_ok (vario : Variogram) {pos : List Geo.Pt} {lc : List ℝ} (hl : lc.length = pos.length) {i j : ℕ} (hi : i < pos.length)
    (hj : j < pos.length) :
    chainCorr vario pos lc i j = .ok ((if lc.getD i 0 = lc.getD j 0 then 1 else lc.getD j 0) * corrAt vario (place pos i) (place pos j)) := by
  have z : (1.0 : ℝ) = 1 := by norm_num
  unfold chainCorr
  rw [rd_getD (by omega), rd_getD (by omega), rd_getD' ⟨0, 0, 0⟩ hi, rd_getD' ⟨0, 0, 0⟩ hj]
  simp only [Res.monad_bind_eq, Res.bind_ok]
  unfold corrAt place
  congr 2
  rcases lt_trichotomy (lc.getD i 0) (lc.getD j 0) with h | h | h
  · rw [if_neg h.not_gt, if_pos h, if_neg h.ne]
  · rw [if_neg h.ge.not_gt, if_neg h.le.not_gt, if_pos h, z]
  · rw [if_pos h, if_neg h.ne']

theorem keep_ok {α : Type} {l : List α} (d : α) : ∀ {D : List (List ℕ)}, (∀ c ∈ D, c ≠ []) → (∀ c ∈ D, c.getD 0 0 < l.length) →
    keep l D = .ok ((D.map (·.getD 0 0)).map fun k => l.getD k d)
  | [], _, _ => rfl
  | c :: cs, h1, h2 => by
    unfold keep
    have hc := h1 c List.mem_cons_self
    rw [rd_getD' 0 (List.length_pos_of_ne_nil hc)]
    simp only [Res.monad_bind_eq, Res.bind_ok]
    rw [rd_getD' d (h2 c List.mem_cons_self)]
    simp only [Res.bind_ok]
    rw [keep_ok d (fun c hc => h1 c (List.mem_cons_of_mem _ hc)) (fun c hc => h2 c (List.mem_cons_of_mem _ hc))]
    rfl

theorem cov2_ok (vario : Variogram) {f : ℕ → ℕ → Res ℝ} {v : ℝ} {std1 std2 : List ℝ} {pos1 pos2 : List Geo.Pt} {i j : ℕ} (hf : f i j = .ok v)
    (h1 : i < std1.length) (h2 : j < std2.length) (h3 : i < pos1.length) (h4 : j < pos2.length) :
    cov2 vario f std1 std2 pos1 pos2 i j = .ok (std1.getD i 0 * std2.getD j 0 * (v * corrAt vario (place pos1 i) (place pos2 j))) := by
  unfold cov2
  rw [hf, rd_getD h1, rd_getD h2, rd_getD' ⟨0, 0, 0⟩ h3, rd_getD' ⟨0, 0, 0⟩ h4]
  rfl

/-- The correlation of two observations at one place. -/
noncomputable def obsCorr (a b : ℝ) : ℝ := if a = b then 1 else min a b

theorem obsFactor_ok {lc : List ℝ} {i j : ℕ} (hi : i < lc.length) (hj : j < lc.length) :
    obsFactor lc i j = .ok (obsCorr (lc.getD i 0) (lc.getD j 0)) := by
  have z : (1.0 : ℝ) = 1 := by norm_num
  unfold obsFactor obsCorr
  rw [rd_getD hi, rd_getD hj]
  simp only [Res.monad_bind_eq, Res.bind_ok]
  congr 1
  rcases lt_trichotomy (lc.getD i 0) (lc.getD j 0) with h | h | h
  · rw [if_neg h.not_gt, if_pos h, if_neg h.ne, min_eq_left h.le]
  · rw [if_neg h.ge.not_gt, if_neg h.le.not_gt, if_pos h, z]
  · rw [if_pos h, if_neg h.ne', min_eq_right h.le]

theorem obsCorr_comm (a b : ℝ) : obsCorr a b = obsCorr b a := by
  unfold obsCorr
  rw [min_comm]
  exact if_congr eq_comm rfl rfl

theorem corrAt_comm (vario : Variogram) (p q : Geo.Pt) : corrAt vario p q = corrAt vario q p := by
  unfold corrAt
  rw [← (corr_neg vario (p.x - q.x) (p.y - q.y) 0).2.1, neg_sub, neg_sub]

theorem getD_map_getD {α β : Type} {l : List α} {f : α → β} {i : ℕ} {d : α} {e : β} (h : i < l.length) : (l.map f).getD i e = f (l.getD i d) := by
  simp [List.getD_eq_getElem?_getD, h]

/-- The covariances of the observations that are kept, with the local correlations that the program takes. -/
noncomputable def usedCov (vario : Variogram) (pos : List Geo.Pt) (lc std : List ℝ) (kept : List ℕ) : Matrix (Fin kept.length) (Fin kept.length) ℝ :=
  Matrix.of fun k l => std.getD (kept.getD k 0) 0 * std.getD (kept.getD l 0) 0 *
    (obsCorr (lc.getD k 0) (lc.getD l 0) * corrAt vario (place pos (kept.getD k 0)) (place pos (kept.getD l 0)))

theorem secondary_weights {pos_known pos_unknown : List Geo.Pt} {lc exp_known exp_unknown std_known std_unknown : List ℝ} (vario : Variogram)
    (hk : pos_known ≠ []) (hu : pos_unknown ≠ []) (h0 : lc.length = pos_known.length) (h1 : exp_known.length = pos_known.length)
    (h2 : std_known.length = pos_known.length) (h3 : exp_unknown.length = pos_unknown.length) (h4 : std_unknown.length = pos_unknown.length)
    {map : List ℤ} {D : List (List ℕ)} {G : ℕ → ℕ → Prop} (hid : identify vario pos_known lc = .ok (map, D))
    (hD : Between G pos_known.length pos_known.length map D) {kept : List ℕ} (hkept : D.map (·.getD 0 0) = kept)
    (hpos : (usedCov vario pos_known lc std_known kept).PosDef) :
    ∃ (w : Fin pos_unknown.length → Fin kept.length → ℝ) (C : SymMat),
      (∀ a k, ∑ j, w a j * usedCov vario pos_known lc std_known kept j k =
        std_unknown.getD a 0 * std_known.getD (kept.getD k 0) 0 * (lc.getD k 0 * corrAt vario (place pos_unknown a) (place pos_known (kept.getD k 0)))) ∧
      (∀ values : List ℝ, values.length = pos_known.length →
        secondary pos_known values lc pos_unknown exp_known exp_unknown std_known std_unknown vario =
          .ok (List.ofFn (fun a => exp_unknown.getD a 0 + ∑ k, w a k * (values.getD (kept.getD k 0) 0 - exp_known.getD (kept.getD k 0) 0)), C)) ∧
      ∀ a b : Fin pos_unknown.length, a ≤ b → C a b = std_unknown.getD a 0 * std_unknown.getD b 0 * corrAt vario (place pos_unknown a) (place pos_unknown b) -
        ∑ k, w a k * (std_unknown.getD b 0 * std_known.getD (kept.getD k 0) 0 *
          (lc.getD k 0 * corrAt vario (place pos_unknown b) (place pos_known (kept.getD k 0)))) := by
  have hk' : pos_known.length ≠ 0 := by simpa using hk
  have hu' : pos_unknown.length ≠ 0 := by simpa using hu
  have hne : ∀ c ∈ D, c ≠ [] := by
    intro c hc
    obtain ⟨k, hk, rfl⟩ := List.getElem_of_mem hc
    obtain ⟨b, _, hg⟩ := hD.good k hk
    rw [show D.getD k [] = D[k] by simp [List.getD_eq_getElem?_getD, hk]] at hg
    obtain ⟨t, ht⟩ := hg.head
    rw [ht]
    exact List.cons_ne_nil _ _
  have hlt : ∀ c ∈ D, c.getD 0 0 < pos_known.length := by
    intro c hc
    have h := hne c hc
    obtain ⟨k, hk, rfl⟩ := List.getElem_of_mem hc
    obtain ⟨t, ts, ht⟩ := List.exists_cons_of_ne_nil h
    refine ((hD.done k hk _).1 ?_).1
    rw [show D.getD k [] = D[k] by simp [List.getD_eq_getElem?_getD, hk], ht]
    simp
  have hkl : ∀ k ∈ kept, k < pos_known.length := by
    rw [← hkept]
    intro k hk
    obtain ⟨c, hc, rfl⟩ := List.mem_map.1 hk
    exact hlt c hc
  have hnd : kept.Nodup := by
    rw [← hkept]
    exact hD.sorted.imp fun h => h.ne
  have hle := nodup_le hnd hkl
  have hD0 : D ≠ [] := by
    rintro rfl
    have h5 := hD.seen 0 (Nat.pos_of_ne_zero hk')
    have h6 := (hD.range 0).2
    simp at h5 h6
    omega
  have hkl0 : kept.length ≠ 0 := by
    rw [← hkept]
    simpa using hD0
  obtain ⟨s11, e11, g11⟩ := fillSymm_ok (n := pos_unknown.length) (f := cov2 vario (fun _ _ => .ok 1) std_unknown std_unknown pos_unknown pos_unknown)
    (g := fun i j => std_unknown.getD i 0 * std_unknown.getD j 0 * (1 * corrAt vario (place pos_unknown i) (place pos_unknown j)))
    (fun i hi j hj => cov2_ok vario rfl (by omega) (by omega) (by omega) (by omega))
  set pu := kept.map (place pos_known) with hpu
  set su := kept.map fun k => std_known.getD k 0 with hsu
  obtain ⟨s22, e22, g22⟩ := fillSymm_ok (n := pu.length) (f := cov2 vario (obsFactor lc) su su pu pu)
    (g := fun i j => su.getD i 0 * su.getD j 0 * (obsCorr (lc.getD i 0) (lc.getD j 0) * corrAt vario (place pu i) (place pu j)))
    (fun i hi j hj => cov2_ok vario (obsFactor_ok (by simp [pu] at *; omega) (by simp [pu] at *; omega)) (by simp [pu, su] at *; omega)
      (by simp [pu, su] at *; omega) (by omega) (by omega))
  obtain ⟨s12, e12, g12⟩ := fillMat_ok (rows := pos_unknown.length) (cols := pu.length) (f := cov2 vario (fun i _ => rd lc i) su std_unknown pu pos_unknown)
    (g := fun i j => su.getD i 0 * std_unknown.getD j 0 * (lc.getD i 0 * corrAt vario (place pu i) (place pos_unknown j)))
    (fun i hi j hj => cov2_ok vario (rd_getD (by simp [pu] at *; omega)) (by simp [pu, su] at *; omega) (by omega) (by omega) (by omega))
  have epl : pu.length = kept.length := by simp [pu]
  rw [epl] at e22 g22 e12 g12
  have spu : ∀ k < kept.length, place pu k = place pos_known (kept.getD k 0) := by
    intro k hk
    exact getD_map_getD hk
  have ssu : ∀ k < kept.length, su.getD k 0 = std_known.getD (kept.getD k 0) 0 := by
    intro k hk
    exact getD_map_getD hk
  have k22 : ∀ k l : Fin kept.length, s22 k l = usedCov vario pos_known lc std_known kept k l := by
    intro k l
    rw [g22 k k.2 l l.2]
    show _ = std_known.getD (kept.getD k 0) 0 * std_known.getD (kept.getD l 0) 0 *
      (obsCorr (lc.getD k 0) (lc.getD l 0) * corrAt vario (place pos_known (kept.getD k 0)) (place pos_known (kept.getD l 0)))
    rw [← spu k k.2, ← spu l l.2, ← ssu k k.2, ← ssu l l.2]
    rcases le_total (k : ℕ) l with hab | hab
    · rw [max_eq_right hab, min_eq_left hab, obsCorr_comm, corrAt_comm]
      ring
    · rw [max_eq_left hab, min_eq_right hab]
  have k12 : ∀ (a : Fin pos_unknown.length) (k : Fin kept.length), s12 a k = std_unknown.getD a 0 * std_known.getD (kept.getD k 0) 0 *
      (lc.getD k 0 * corrAt vario (place pos_unknown a) (place pos_known (kept.getD k 0))) := by
    intro a k
    rw [g12 k k.2 a a.2, spu k k.2, ssu k k.2, corrAt_comm]
    ring
  have hP : (s22.toMatrix kept.length).PosDef := by
    rw [toMatrix_congr k22]
    exact hpos
  obtain ⟨w, C, hw, hcore, hC⟩ := core_ok (s11 := s11) (s12 := s12) hu' hkl0 hP
  refine ⟨w, C, fun a k => ?_, fun values hv => ?_, fun a b hab => ?_⟩
  · rw [← k12, ← hw]
    exact Finset.sum_congr rfl fun j _ => by rw [k22]
  · unfold secondary
    rw [if_neg hk', delta_ok hv h1, fillVec_ok (g := fun i => exp_unknown.getD i 0) fun i hi => rd_getD (by omega), e11, hid]
    simp only [Res.monad_bind_eq, Res.bind_ok]
    rw [keep_ok ⟨0, 0, 0⟩ hne hlt, keep_ok 0 hne (by simpa using hlt), keep_ok 0 hne (by rw [h2]; exact hlt)]
    simp only [Res.bind_ok]
    rw [hkept]
    have : (List.map (fun k => pos_known.getD k ⟨0, 0, 0⟩) kept) = pu := rfl
    rw [this, ← hsu, epl, e22, e12]
    simp only [Res.bind_ok]
    rw [hcore]
    congr 2
    congr 1
    funext a
    congr 1
    · exact toVec_map (fun i => exp_unknown.getD i 0) a
    · refine Finset.sum_congr rfl fun k _ => ?_
      congr 1
      show (List.map _ kept).getD k 0 = _
      rw [getD_map_getD (d := 0) k.2]
      have := hkl (kept.getD k 0) (by
        rw [show kept.getD k 0 = kept[(k : ℕ)] by simp [List.getD_eq_getElem?_getD]]
        exact List.getElem_mem _)
      have hr : ∀ i < pos_known.length, ((List.range pos_known.length).map fun i => values.getD i 0 - exp_known.getD i 0).getD i 0 =
          values.getD i 0 - exp_known.getD i 0 := by
        intro i hi
        rw [getD_map_getD (d := 0) (by simpa using hi)]
        simp [List.getD_eq_getElem?_getD, hi]
      exact hr _ this
  · rw [hC a b hab, g11 a a.2 b b.2]
    have hab' : (a : ℕ) ≤ b := hab
    rw [max_eq_right hab', min_eq_left hab', corrAt_comm, one_mul]
    congr 1
    · ring
    · exact Finset.sum_congr rfl fun i _ => by rw [k12]

end Verif.PostNormal
