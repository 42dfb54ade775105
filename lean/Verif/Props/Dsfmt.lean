import Verif.Lemmas.DsfmtDraw

/-! # Properties of the dSFMT generator: C37, C38, C39, C40 and the stream part of C14 -/

namespace Verif.Dsfmt

open Spec.Mt

/-! ## C39: the two builds agree -/

/-- The recursion of the SSE2 build and of the portable build give the same words. -/
theorem recursion_build_independent (a b l : W128) : recSse2 a b l = recPortable a b l :=
  recSse2_eq a b l

theorem doRecursion_build : doRecursion .sse2 = doRecursion .portable := by
  funext a b l
  exact recSse2_eq a b l

/-- No function of the generator depends on the build. -/
theorem generator_build_independent :
    genRandAll .sse2 = genRandAll .portable ∧ genrandUint32 .sse2 = genrandUint32 .portable ∧
    genrandClose1Open2 .sse2 = genrandClose1Open2 .portable ∧
    genrandCloseOpen .sse2 = genrandCloseOpen .portable ∧
    genrandOpenClose .sse2 = genrandOpenClose .portable ∧
    genrandOpenOpen .sse2 = genrandOpenOpen .portable ∧
    fillArrayClose1Open2 .sse2 = fillArrayClose1Open2 .portable ∧
    fillArrayCloseOpen .sse2 = fillArrayCloseOpen .portable ∧
    fillArrayOpenClose .sse2 = fillArrayOpenClose .portable ∧
    fillArrayOpenOpen .sse2 = fillArrayOpenOpen .portable := by
  have h1 : recInto .sse2 = recInto .portable := by
    funext; simp only [recInto, doRecursion_build]
  have h2 : genRandAll .sse2 = genRandAll .portable := by
    funext; simp only [genRandAll, h1]
  have h3 : nextWord .sse2 = nextWord .portable := by
    funext; simp only [nextWord, h2]
  have h4 : recSS .sse2 = recSS .portable := by funext; simp only [recSS, doRecursion_build]
  have h5 : recSA .sse2 = recSA .portable := by funext; simp only [recSA, doRecursion_build]
  have h6 : recAA .sse2 = recAA .portable := by funext; simp only [recAA, doRecursion_build]
  have h7 : genrandClose1Open2 .sse2 = genrandClose1Open2 .portable := by
    funext; simp only [genrandClose1Open2, h3]
  have h8 : ∀ c, genRandArrayConv c .sse2 = genRandArrayConv c .portable := by
    intro c; funext; simp only [genRandArrayConv, h4, h5, h6]
  have h9 : genRandArrayC1o2 .sse2 = genRandArrayC1o2 .portable := by
    funext; simp only [genRandArrayC1o2, h4, h5, h6]
  refine ⟨h2, ?_, h7, ?_, ?_, ?_, ?_, ?_, ?_, ?_⟩ <;> funext
  · simp only [genrandUint32, h3]
  · simp only [genrandCloseOpen, h7]
  · simp only [genrandOpenClose, h7]
  · simp only [genrandOpenOpen, h3]
  · simp only [fillArrayClose1Open2, h9]
  · simp only [fillArrayCloseOpen, h8]
  · simp only [fillArrayOpenClose, h8]
  · simp only [fillArrayOpenOpen, h8]

/-! ## C40: seeding -/

/-- Seeding overwrites the whole state: the result is a function of the seed alone. -/
theorem seeding_determined (seed : BitVec 32) {d : Dsfmt} (hl : d.status.length = 192) :
    initGenRand seed d = .ok ⟨seedState seed, 382⟩ := initGenRand_eq seed hl

/-- After seeding with any value the state is admissible and the period certificate holds. -/
theorem seeding_admissible (seed : BitVec 32) {d : Dsfmt} (hl : d.status.length = 192) :
    ∃ d', initGenRand seed d = .ok d' ∧ Admissible d' ∧ d'.idx = 382 ∧
      ∃ lung, d'.status[191]? = some lung ∧ Certified lung :=
  ⟨_, initGenRand_eq seed hl, seed_admissible seed, rfl, seedState_lung seed⟩

/-- The tail of both seeding functions. -/
theorem finish_admissible {st : List W128} (hl : st.length = 192) :
    ((initialMask st).bind fun st => (periodCertification st).bind fun st =>
      .ok (Dsfmt.mk st n64)).Sat fun d' => Admissible d' ∧ d'.idx = 382 ∧
      ∃ lung, d'.status[191]? = some lung ∧ Certified lung := by
  refine Res.Sat.bind (initialMask_spec hl) fun st2 ⟨g1, g2, g3⟩ => ?_
  have hlt : 191 < st2.length := by omega
  refine Res.Sat.bind (periodCertification_spec g1 (List.getElem?_eq_getElem hlt))
    fun st3 ⟨k1, k2, k3, k4⟩ => ?_
  rw [Res.sat_ok]
  refine ⟨⟨k1, le_rfl, fun i hi w hw => ?_⟩, rfl, ?_⟩
  · have hw' : st2[i]? = some w := (k2 i hi).symm.trans hw
    obtain ⟨a, ha⟩ := rd64_ok (st := st) (i := 2 * i) (by omega)
    obtain ⟨b, hb⟩ := rd64_ok (st := st) (i := 2 * i + 1) (by omega)
    have := el_of_rd64 (g2 _ (by omega) _ ha) (g2 _ (by omega) _ hb) (show i < st2.length by omega)
    rw [hw', Option.some.injEq] at this
    rw [this]
    exact ⟨put12_is12 _, put12_is12 _⟩
  · by_cases hc : Certified st2[191]
    · exact ⟨_, k3 hc, hc⟩
    · exact ⟨_, k4 hc, certified_flip _ hc⟩

theorem upd32_len {st : List W128} {i : ℕ} (f : BitVec 32 → BitVec 32) (h : i < 4 * st.length) :
    (upd32 st i f).Sat fun st' => st'.length = st.length := by
  obtain ⟨w, hw⟩ := rd32_ok h
  unfold upd32
  rw [Res.monad_bind_eq, hw, Res.bind_ok]
  exact (wr32_spec h _).mono fun _ h => h.1

theorem arrayRound1_len (k : BitVec 32) {s : List W128 × ℕ} (h : s.1.length = 192 ∧ s.2 < 768) :
    (arrayRound1 768 378 11 k s).Sat fun s' => s'.1.length = 192 ∧ s'.2 < 768 := by
  obtain ⟨hl, hi⟩ := h
  unfold arrayRound1
  simp only [Res.monad_bind_eq]
  obtain ⟨x, hx⟩ := rd32_ok (st := s.1) (i := s.2) (by omega)
  obtain ⟨y, hy⟩ := rd32_ok (st := s.1) (i := (s.2 + 378) % 768) (by omega)
  obtain ⟨z, hz⟩ := rd32_ok (st := s.1) (i := (s.2 + 768 - 1) % 768) (by omega)
  rw [hx, Res.bind_ok, hy, Res.bind_ok, hz, Res.bind_ok]
  refine Res.Sat.bind (upd32_len _ (by omega)) fun st1 h1 => ?_
  refine Res.Sat.bind (upd32_len _ (by omega)) fun st2 h2 => ?_
  refine Res.Sat.bind (wr32_spec (by omega) _) fun st3 h3 => ?_
  rw [Res.sat_ok]
  exact ⟨by show st3.length = 192; omega, Nat.mod_lt _ (by omega)⟩

theorem arrayRound2_len {s : List W128 × ℕ} (h : s.1.length = 192 ∧ s.2 < 768) :
    (arrayRound2 768 378 11 s).Sat fun s' => s'.1.length = 192 ∧ s'.2 < 768 := by
  obtain ⟨hl, hi⟩ := h
  unfold arrayRound2
  simp only [Res.monad_bind_eq]
  obtain ⟨x, hx⟩ := rd32_ok (st := s.1) (i := s.2) (by omega)
  obtain ⟨y, hy⟩ := rd32_ok (st := s.1) (i := (s.2 + 378) % 768) (by omega)
  obtain ⟨z, hz⟩ := rd32_ok (st := s.1) (i := (s.2 + 768 - 1) % 768) (by omega)
  rw [hx, Res.bind_ok, hy, Res.bind_ok, hz, Res.bind_ok]
  refine Res.Sat.bind (upd32_len _ (by omega)) fun st1 h1 => ?_
  refine Res.Sat.bind (upd32_len _ (by omega)) fun st2 h2 => ?_
  refine Res.Sat.bind (wr32_spec (by omega) _) fun st3 h3 => ?_
  rw [Res.sat_ok]
  exact ⟨by show st3.length = 192; omega, Nat.mod_lt _ (by omega)⟩

/-- After seeding with any array of keys (whose length fits in an `int`) the state is admissible and
the period certificate holds. -/
theorem arraySeeding_admissible (key : List (BitVec 32)) (hk : key.length < 2 ^ 31 - 1) {d : Dsfmt}
    (hl : d.status.length = 192) :
    ∃ d', initByArray key d = .ok d' ∧ Admissible d' ∧ d'.idx = 382 ∧
      ∃ lung, d'.status[191]? = some lung ∧ Certified lung := by
  unfold initByArray
  rw [if_neg (by omega)]
  simp only [Res.monad_bind_eq]
  have hl0 : (List.replicate d.status.length
      (⟨0x8b8b8b8b8b8b8b8b#64, 0x8b8b8b8b8b8b8b8b#64⟩ : W128)).length = 192 :=
    List.length_replicate.trans hl
  generalize (List.replicate d.status.length
      (⟨0x8b8b8b8b8b8b8b8b#64, 0x8b8b8b8b8b8b8b8b#64⟩ : W128)) = st0 at hl0
  obtain ⟨x, hx⟩ := rd32_ok (st := st0) (i := 0) (by omega)
  obtain ⟨y, hy⟩ := rd32_ok (st := st0) (i := ((nW + 1) * 4 - 11) / 2 % ((nW + 1) * 4))
    (by rw [hl0]; decide)
  obtain ⟨z, hz⟩ := rd32_ok (st := st0) (i := ((nW + 1) * 4 - 1) % ((nW + 1) * 4))
    (by rw [hl0]; decide)
  rw [hx, Res.bind_ok, hy, Res.bind_ok, hz, Res.bind_ok]
  refine Res.Sat.bind (upd32_len _ (by rw [hl0]; decide)) fun st1 h1 => ?_
  refine Res.Sat.bind (upd32_len _ (by rw [h1, hl0]; decide)) fun st2 h2 => ?_
  refine Res.Sat.bind (wr32_spec (by omega) _) fun st3 h3 => ?_
  have h3' : st3.length = 192 := by omega
  refine Res.Sat.bind (P := fun s : List W128 × ℕ => s.1.length = 192 ∧ s.2 < 768)
    (forRange_inv _ ⟨h3', by show 1 < 768; omega⟩ fun i s _ hi hI => ?_) fun s hs => ?_
  · rw [rd_ok (lt_of_lt_of_le hi (min_le_right _ _)), Res.bind_ok]
    exact arrayRound1_len _ hI
  refine Res.Sat.bind (P := fun s : List W128 × ℕ => s.1.length = 192 ∧ s.2 < 768)
    (forRange_inv _ hs fun i s _ hi hI => arrayRound1_len _ hI) fun s hs => ?_
  refine Res.Sat.bind (P := fun s : List W128 × ℕ => s.1.length = 192 ∧ s.2 < 768)
    (forRange_inv _ hs fun i s _ hi hI => arrayRound2_len hI) fun s hs => ?_
  exact finish_admissible hs.1

/-! ## C37: intervals -/

theorem zip_inRange (X : ℕ → W128) (ks : List Kind) (p : ℕ) :
    List.Forall₂ Kind.InRange ks ((ks.zipIdx p).map fun kq => kq.1.value (word X kq.2)) := by
  induction ks generalizing p with
  | nil => exact List.Forall₂.nil
  | cons k ks ih =>
    rw [List.zipIdx_cons, List.map_cons]
    exact List.Forall₂.cons (value_inRange k _) (ih (p + 1))

/-- From every admissible state any number of draws of any kinds succeeds, every number is in the
documented interval of its kind, and the state stays admissible (the index stays in its array). -/
theorem draws_inRange (b : Build) {d : Dsfmt} (h : Admissible d) (ks : List Kind) :
    ∃ xs d', draws b ks d = .ok (xs, d') ∧ List.Forall₂ Kind.InRange ks xs ∧ Admissible d' := by
  obtain ⟨X, L, hX, _, hp, h12⟩ := admissible_pos h
  obtain ⟨⟨xs, d'⟩, e, h1, h2⟩ := draws_pos hX b ks hp
    (fun q _ => word_is12 (k := 0) (fun n _ => h12 n) q (by omega))
  refine ⟨xs, d', e, ?_, pos_admissible h1 h12⟩
  simp only at h2
  rw [h2]
  exact zip_inRange X ks _

/-- C37: after seeding with any value, whatever was in the state before. -/
theorem uniform_inRange (b : Build) (seed : BitVec 32) {d : Dsfmt} (hl : d.status.length = 192)
    (ks : List Kind) : ∃ xs d', ((initGenRand seed d).bind (draws b ks)) = .ok (xs, d') ∧
      List.Forall₂ Kind.InRange ks xs ∧ d'.idx ≤ 382 := by
  rw [initGenRand_eq seed hl, Res.bind_ok]
  obtain ⟨xs, d', h1, h2, h3⟩ := draws_inRange b (seed_admissible seed) ks
  exact ⟨xs, d', h1, h2, h3.idx⟩

/-- The numbers drawn after seeding are those of the published sequence: draw number `i` gives the
value of word `382 + i` of the sequence that starts with the seeded array. -/
theorem draws_follow_sequence (b : Build) (seed : BitVec 32) {d : Dsfmt}
    (hl : d.status.length = 192) (ks : List Kind) : ∃ X L, DsfmtSeq X L ∧
      (∀ i < 191, (seedState seed)[i]? = some (X i)) ∧ (seedState seed)[191]? = some (L 0) ∧
      ∃ d', ((initGenRand seed d).bind (draws b ks))
        = .ok ((ks.zipIdx 382).map fun kq => kq.1.value (word X kq.2), d') := by
  rw [initGenRand_eq seed hl, Res.bind_ok]
  obtain ⟨X, L, hX, hw, hp, h12⟩ := admissible_pos (seed_admissible seed)
  obtain ⟨⟨xs, d'⟩, e, h1, h2⟩ := draws_pos hX b ks hp
    (fun q _ => word_is12 (k := 0) (fun n _ => h12 n) q (by omega))
  simp only at h2
  refine ⟨X, L, hX, fun i hi => ?_, ?_, d', ?_⟩
  · have := hw.el i hi
    rw [zero_add] at this
    exact this
  · exact hw.lung
  · rw [e, h2]

/-! ## C38: blocks -/

theorem flatMap_pairs (f : ℕ → ℝ) (m : ℕ) :
    (List.range m).flatMap (fun j => [f (2 * j), f (2 * j + 1)]) = (List.range (2 * m)).map f := by
  induction m with
  | zero => rfl
  | succ m ih =>
    rw [List.range_succ, List.flatMap_append, ih, show 2 * (m + 1) = 2 * m + 1 + 1 by ring,
      List.range_succ, List.range_succ]
    simp

theorem zipIdx_replicate (n p : ℕ) (k : Kind) (X : ℕ → W128) :
    (((List.replicate n k).zipIdx p).map fun kq => kq.1.value (word X kq.2))
      = (List.range n).map fun i => k.value (word X (p + i)) := by
  induction n generalizing p with
  | zero => rfl
  | succ n ih =>
    rw [List.replicate_succ, List.zipIdx_cons, List.map_cons, ih, List.range_succ_eq_map,
      List.map_cons, List.map_map]
    refine congrArg₂ _ rfl (List.map_congr_left fun i _ => ?_)
    simp only [Function.comp]
    rw [show p + 1 + i = p + (i + 1) by omega]

theorem filled_vals {X L : ℕ → W128} {C : ℕ → Cell} {arr : List Cell} {m : ℕ} {d : Dsfmt}
    {r : List Cell × Dsfmt} {k : Kind} (hr : Filled X L C arr 0 m d r) (ha : arr.length = m)
    (hC : ∀ n, cellVals (C n) = [k.value (X n).u0, k.value (X n).u1]) :
    r.1.flatMap cellVals = (List.range (2 * m)).map fun i => k.value (word X (382 + i)) := by
  have e : r.1 = (List.range m).map fun j => C (191 + j) := by
    refine List.ext_getElem? fun i => ?_
    by_cases hi : i < m
    · rw [hr.el i hi, List.getElem?_map, List.getElem?_range hi]
      simp
    · rw [List.getElem?_eq_none (by rw [hr.alen, ha]; omega), List.getElem?_eq_none (by simpa using hi)]
  rw [e, List.flatMap_map, ← flatMap_pairs]
  congr 1
  funext j
  have e0 : word X (382 + 2 * j) = (X (191 + j)).u0 := by
    unfold word
    rw [if_pos (by omega), show (382 + 2 * j) / 2 = 191 + j by omega]
  have e1 : word X (382 + (2 * j + 1)) = (X (191 + j)).u1 := by
    unfold word
    rw [if_neg (by omega), show (382 + (2 * j + 1)) / 2 = 191 + j by omega]
  rw [hC, e0, e1]

/-- The claim of C38 for one kind of numbers and the block function for it: the block has the numbers
drawn one at a time, and the draws that follow are the same too. -/
def BlockAgrees (b : Build) (k : Kind) (d : Dsfmt) (n : ℕ) (res : Res (List Cell × Dsfmt)) : Prop :=
  ∃ arr' d' d'', res = .ok (arr', d') ∧
    draws b (List.replicate n k) d = .ok (arr'.flatMap cellVals, d'') ∧
    ∀ ks, ∃ xs e' e'', draws b ks d' = .ok (xs, e') ∧ draws b ks d'' = .ok (xs, e'')

theorem blockAgrees_of_filled {X L : ℕ → W128} {C : ℕ → Cell} {arr : List Cell} {m : ℕ} {d : Dsfmt}
    {k : Kind} {res : Res (List Cell × Dsfmt)} (b : Build) (hX : DsfmtSeq X L)
    (h12 : ∀ n, Is12 (X n).u0 ∧ Is12 (X n).u1) (hp : Pos X L 382 d) (hidx : d.idx = 382)
    (hr : res.Sat (Filled X L C arr 0 m d)) (ha : arr.length = m)
    (hC : ∀ n, cellVals (C n) = [k.value (X n).u0, k.value (X n).u1]) :
    BlockAgrees b k d (2 * m) res := by
  obtain ⟨⟨arr', d'⟩, e, hf⟩ := hr
  have w12 : ∀ q, Is12 (word X q) := fun q => word_is12 (k := 0) (fun n _ => h12 n) q (by omega)
  obtain ⟨⟨xs, d''⟩, e2, h1, h2⟩ := draws_pos hX b (List.replicate (2 * m) k) hp (fun q _ => w12 q)
  simp only at h1 h2
  refine ⟨arr', d', d'', e, ?_, fun ks => ?_⟩
  · rw [e2, h2, zipIdx_replicate]
    have := filled_vals hf ha hC
    simp only at this
    rw [this]
  · have hp' : Pos X L (382 + 2 * m) d' := pos_iff.2 ⟨0 + m, hf.win, by
      have : d'.idx = d.idx := hf.idx
      omega, by
      have : d'.idx = d.idx := hf.idx
      omega⟩
    rw [List.length_replicate] at h1
    obtain ⟨⟨ys, e'⟩, g1, _, g2⟩ := draws_pos hX b ks hp' (fun q _ => w12 q)
    obtain ⟨⟨zs, e''⟩, g3, _, g4⟩ := draws_pos hX b ks h1 (fun q _ => w12 q)
    simp only at g2 g4
    exact ⟨ys, e', e'', g1, by rw [g3, g4, ← g2]⟩

/-- C38: from every admissible state whose array is used up (as after seeding), for every even length
of at least 382, each block function gives the numbers that would be drawn one at a time, and leaves
the generator where drawing them would have left it. -/
theorem blocks_agree (b : Build) {d : Dsfmt} (h : Admissible d) (hidx : d.idx = 382) {n : ℕ}
    (hn : n % 2 = 0) (hn' : 382 ≤ n) {arr : List Cell} (ha : arr.length = n / 2) :
    BlockAgrees b .close1Open2 d n (fillArrayClose1Open2 b d arr n) ∧
    BlockAgrees b .closeOpen d n (fillArrayCloseOpen b d arr n) ∧
    BlockAgrees b .openClose d n (fillArrayOpenClose b d arr n) ∧
    BlockAgrees b .openOpen d n (fillArrayOpenOpen b d arr n) := by
  obtain ⟨X, L, hX, hw, hp, h12⟩ := admissible_pos h
  rw [hidx] at hp
  have hcond : n % 2 = 0 ∧ n64 ≤ n := ⟨hn, hn'⟩
  have hm : 191 ≤ n / 2 := by omega
  have e2 : n = 2 * (n / 2) := by omega
  have one : (1.0 : ℝ) = 1 := by norm_num
  have two : (2.0 : ℝ) = 2 := by norm_num
  refine ⟨?_, ?_, ?_, ?_⟩
  · rw [fillArrayClose1Open2, fillArray, if_pos hcond]
    conv => arg 4; rw [e2]
    exact blockAgrees_of_filled b hX h12 hp hidx (genRandArrayC1o2_filled hX b hw hm ha.ge) ha
      (fun _ => rfl)
  · rw [fillArrayCloseOpen, fillArray, if_pos hcond]
    conv => arg 4; rw [e2]
    exact blockAgrees_of_filled (C := fun n => .dbl (val12 (X n).u0 - 1) (val12 (X n).u1 - 1))
      b hX h12 hp hidx (genRandArrayConv_filled hX b (fun n _ => by
        simp only [convertC0o1, Cell.raw, Res.monad_bind_eq, Res.bind_ok, f64Val_is12 (h12 n).1,
          f64Val_is12 (h12 n).2, one]) hw hm ha.ge) ha (fun _ => rfl)
  · rw [fillArrayOpenClose, fillArray, if_pos hcond]
    conv => arg 4; rw [e2]
    exact blockAgrees_of_filled (C := fun n => .dbl (2 - val12 (X n).u0) (2 - val12 (X n).u1))
      b hX h12 hp hidx (genRandArrayConv_filled hX b (fun n _ => by
        simp only [convertO0c1, Cell.raw, Res.monad_bind_eq, Res.bind_ok, f64Val_is12 (h12 n).1,
          f64Val_is12 (h12 n).2, two]) hw hm ha.ge) ha (fun _ => rfl)
  · rw [fillArrayOpenOpen, fillArray, if_pos hcond]
    conv => arg 4; rw [e2]
    exact blockAgrees_of_filled
      (C := fun n => .dbl (val12 ((X n).u0 ||| 1#64) - 1) (val12 ((X n).u1 ||| 1#64) - 1))
      b hX h12 hp hidx (genRandArrayConv_filled hX b (fun n _ => by
        simp only [convertO0o1, Cell.raw, Res.monad_bind_eq, Res.bind_ok,
          f64Val_is12 (is12_or_one (h12 n).1), f64Val_is12 (is12_or_one (h12 n).2), one])
        hw hm ha.ge) ha (fun _ => rfl)

/-- Outside that precondition C38 fails: if the array is not used up, the number drawn after a block
has already been returned as part of the block. (Stated for [0, 1).) -/
theorem blocks_midBuffer_refuted (b : Build) {d : Dsfmt} (h : Admissible d) (hidx : d.idx < 382)
    {n : ℕ} (hn : n % 2 = 0) (hn' : 382 ≤ n) {arr : List Cell} (ha : arr.length = n / 2) :
    ∃ arr' d' d'', ∃ i : ℕ, ∃ x : ℝ, fillArrayCloseOpen b d arr n = .ok (arr', d') ∧
      (arr'.flatMap cellVals)[i]? = some x ∧ genrandCloseOpen b d' = .ok (x, d'') := by
  obtain ⟨X, L, hX, hw, hp, h12⟩ := admissible_pos h
  have w12 : ∀ q, Is12 (word X q) := fun q => word_is12 (k := 0) (fun n _ => h12 n) q (by omega)
  have one : (1.0 : ℝ) = 1 := by norm_num
  obtain ⟨⟨arr', d'⟩, e, hf⟩ := genRandArrayConv_filled
    (C := fun n => .dbl (val12 (X n).u0 - 1) (val12 (X n).u1 - 1)) (convert := convertC0o1) hX b
    (fun n _ => by
      simp only [convertC0o1, Cell.raw, Res.monad_bind_eq, Res.bind_ok, f64Val_is12 (h12 n).1,
        f64Val_is12 (h12 n).2, one]) hw (show 191 ≤ n / 2 by omega) ha.ge
  have hi' : d'.idx = d.idx := hf.idx
  have hp' : Pos X L (2 * (n / 2) + d.idx) d' :=
    pos_iff.2 ⟨0 + n / 2, hf.win, by omega, by omega⟩
  obtain ⟨⟨x, d''⟩, e2, hx, _⟩ := draw_pos hX b hp' (w12 _) .closeOpen
  have hv := filled_vals (k := .closeOpen) hf ha (fun _ => rfl)
  simp only at hx hv
  refine ⟨arr', d', d'', 2 * (n / 2) + d.idx - 382, x, ?_, ?_, e2⟩
  · rw [fillArrayCloseOpen, fillArray, if_pos ⟨hn, hn'⟩, e]
  · rw [hv, List.getElem?_map, List.getElem?_range (by omega), hx]
    simp only [Option.map_some]
    rw [show 382 + (2 * (n / 2) + d.idx - 382) = 2 * (n / 2) + d.idx by omega]

/-- Both situations occur: right after seeding the array is used up, after one more draw it is not. -/
example : ∃ d d' : Dsfmt, Admissible d ∧ d.idx = 382 ∧ Admissible d' ∧ d'.idx < 382 := by
  refine ⟨⟨seedState 0, 382⟩, ⟨seedState 0, 0⟩, seed_admissible 0, rfl, ?_, by show 0 < 382; omega⟩
  exact ⟨(seed_admissible 0).len, by show 0 ≤ 382; omega, (seed_admissible 0).is12⟩

/-! ## C14: different seeds -/

theorem val12_inj {v w : BitVec 64} (hv : Is12 v) (hw : Is12 w) (h : val12 v = val12 w) : v = w := by
  have hm : v.toNat % 2 ^ 52 = w.toNat % 2 ^ 52 := by
    unfold val12 at h
    have h2 : ((v.toNat % 2 ^ 52 : ℕ) : ℝ) = ((w.toNat % 2 ^ 52 : ℕ) : ℝ) := by
      have := add_left_cancel h
      field_simp at this
      exact this
    exact_mod_cast h2
  refine BitVec.eq_of_getLsbD_eq fun i hi => ?_
  by_cases h52 : i < 52
  · have := congrArg (fun n => Nat.testBit n i) hm
    simp only [Nat.testBit_mod_two_pow, decide_eq_true h52, Bool.true_and] at this
    exact this
  · have h1 := (is12_iff v).1 hv (i - 52) (by omega)
    have h2 := (is12_iff w).1 hw (i - 52) (by omega)
    rw [show 52 + (i - 52) = i by omega] at h1 h2
    rw [h1, h2]

theorem seed_of_state {s s' : BitVec 32} (h : put12 (seedWord s 0) = put12 (seedWord s' 0)) :
    s = s' := by
  refine BitVec.eq_of_getLsbD_eq fun i hi => ?_
  have := congrArg (fun v : BitVec 64 => v.getLsbD i) h
  have m1 : (0x000FFFFFFFFFFFFF#64).getLsbD i = true := by interval_cases i <;> rfl
  have m2 : (0x3FF0000000000000#64).getLsbD i = false := by interval_cases i <;> rfl
  simp only [put12, BitVec.getLsbD_or, BitVec.getLsbD_and, m1, m2, Bool.and_true, Bool.or_false]
    at this
  have e : ∀ s : BitVec 32, (seedWord s 0).getLsbD i = s.getLsbD i := by
    intro s
    show (mtInit s 1 ++ mtInit s 0 : BitVec (32 + 32)).getLsbD i = _
    rw [BitVec.getLsbD_append, if_pos hi]
    rfl
  rwa [e, e] at this

/-- Different 32-bit seeds start different streams of uniform numbers: among any 387 consecutive
draws, however late, at least one differs. (So the streams differ infinitely often, and never merge.)
-/
theorem seeds_streams_differ (b : Build) {s s' : BitVec 32} (hs : s ≠ s') {d e : Dsfmt}
    (hd : d.status.length = 192) (he : e.status.length = 192) (n : ℕ) :
    ∃ xs ys d' e', (initGenRand s d).bind (draws b (List.replicate (n + 387) .closeOpen))
        = .ok (xs, d') ∧
      (initGenRand s' e).bind (draws b (List.replicate (n + 387) .closeOpen)) = .ok (ys, e') ∧
      ∃ i : ℕ, n ≤ i ∧ i < n + 387 ∧ xs[i]? ≠ ys[i]? := by
  rw [initGenRand_eq s hd, initGenRand_eq s' he, Res.bind_ok, Res.bind_ok]
  obtain ⟨X, L, hX, hw, hp, h12⟩ := admissible_pos (seed_admissible s)
  obtain ⟨Y, K, hY, hw', hp', h12'⟩ := admissible_pos (seed_admissible s')
  have w12 : ∀ q, Is12 (word X q) := fun q => word_is12 (k := 0) (fun n _ => h12 n) q (by omega)
  have w12' : ∀ q, Is12 (word Y q) := fun q => word_is12 (k := 0) (fun n _ => h12' n) q (by omega)
  obtain ⟨⟨xs, d'⟩, e1, _, h1⟩ := draws_pos hX b (List.replicate (n + 387) .closeOpen) hp
    (fun q _ => w12 q)
  obtain ⟨⟨ys, e'⟩, e2, _, h2⟩ := draws_pos hY b (List.replicate (n + 387) .closeOpen) hp'
    (fun q _ => w12' q)
  simp only [zipIdx_replicate] at h1 h2
  refine ⟨xs, ys, d', e', e1, e2, ?_⟩
  by_contra hc
  push Not at hc
  have hword : ∀ q, 382 + n ≤ q → q < 382 + n + 387 → word X q = word Y q := by
    intro q h3 h4
    have := hc (q - 382) (by omega) (by omega)
    rw [h1, h2, List.getElem?_map, List.getElem?_map, List.getElem?_range (by omega)] at this
    simp only [Option.map_some, Option.some.injEq, Kind.value] at this
    rw [show 382 + (q - 382) = q by omega] at this
    exact val12_inj (w12 q) (w12' q) (by linarith)
  have hXY : ∀ i, (382 + n + 1) / 2 ≤ i → i < (382 + n + 1) / 2 + 193 → X i = Y i := by
    intro i h3 h4
    have g0 := hword (2 * i) (by omega) (by omega)
    have g1 := hword (2 * i + 1) (by omega) (by omega)
    unfold word at g0 g1
    rw [if_pos (by omega), if_pos (by omega), show 2 * i / 2 = i by omega] at g0
    rw [if_neg (by omega), if_neg (by omega), show (2 * i + 1) / 2 = i by omega] at g1
    exact W128.ext' g0 g1
  obtain ⟨hXe, _⟩ := seq_observable hX hY hXY
  have hx0 := hw.el 0 (by omega)
  have hy0 := hw'.el 0 (by omega)
  change (seedState s)[0]? = _ at hx0
  change (seedState s')[0]? = _ at hy0
  rw [seedState_el s (by omega), Option.some.injEq] at hx0
  rw [seedState_el s' (by omega), Option.some.injEq] at hy0
  rw [← hXe] at hy0
  have := hx0.trans hy0.symm
  exact hs (seed_of_state (congrArg W128.u0 this))

/-- Two different seeds. -/
example : (1#32 : BitVec 32) ≠ 2#32 := by decide

end Verif.Dsfmt
