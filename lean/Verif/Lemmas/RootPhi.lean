import Verif.Lemmas.Phi
import Mathlib.Analysis.Calculus.MeanValue

/-! Helper lemmas: the root finding loop of `RootPHI` ends, near the root. -/

namespace Verif.RootPhi

open Set NormalD

/-- A function whose root `r` is looked for in [l, u]. -/
structure Shape (F G : ℝ → ℝ) (l u r δ : ℝ) : Prop where
  deriv : ∀ x, HasDerivAt F (G x) x
  pos : ∀ x, 0 < G x
  root : F r = 0
  δ0 : 0 < δ
  ratio : ∀ s ∈ Icc l u, ∀ t ∈ Icc l u, |s - t| ≤ δ → G s ≤ 9 / 8 * G t
  side : (∀ p ∈ Icc l u, p ≠ r → p - F p / G p < r) ∨ (∀ p ∈ Icc l u, p ≠ r → r < p - F p / G p)

variable {F G : ℝ → ℝ} {l u r δ e y : ℝ} {d : NormalD}

theorem Shape.mono (H : Shape F G l u r δ) : StrictMono F :=
  strictMono_of_deriv_pos fun x => by rw [(H.deriv x).deriv]; exact H.pos x

theorem Shape.mvt (H : Shape F G l u r δ) (a b : ℝ) :
    ∃ c ∈ uIcc a b, F b - F a = G c * (b - a) := by
  rcases lt_trichotomy a b with h | h | h
  · obtain ⟨c, hc, e⟩ := exists_hasDerivAt_eq_slope F G h
      (fun x _ => (H.deriv x).continuousAt.continuousWithinAt) fun x _ => H.deriv x
    refine ⟨c, by rw [uIcc_of_le h.le]; exact Ioo_subset_Icc_self hc, ?_⟩
    rw [e, div_mul_cancel₀]
    linarith
  · subst h
    exact ⟨a, by simp, by simp⟩
  · obtain ⟨c, hc, e⟩ := exists_hasDerivAt_eq_slope F G h
      (fun x _ => (H.deriv x).continuousAt.continuousWithinAt) fun x _ => H.deriv x
    refine ⟨c, by rw [uIcc_of_ge h.le]; exact Ioo_subset_Icc_self hc, ?_⟩
    have : a - b ≠ 0 := by linarith
    rw [eq_div_iff this] at e
    linarith

theorem uIcc_sub {a b c : ℝ} (ha : a ∈ Icc l u) (hb : b ∈ Icc l u) (hc : c ∈ uIcc a b) : c ∈ Icc l u :=
  (uIcc_subset_Icc ha hb) hc

theorem uIcc_abs {a b c : ℝ} (hc : c ∈ uIcc a b) : |c - a| ≤ |b - a| ∧ |c - b| ≤ |b - a| := by
  rcases le_total a b with h | h
  · rw [uIcc_of_le h] at hc
    rw [abs_of_nonneg (by linarith [hc.1]), abs_of_nonneg (by linarith), abs_of_nonpos (by linarith [hc.2])]
    constructor <;> linarith [hc.1, hc.2]
  · rw [uIcc_of_ge h] at hc
    rw [abs_of_nonpos (by linarith [hc.2]), abs_of_nonpos (by linarith), abs_of_nonneg (by linarith [hc.1])]
    constructor <;> linarith [hc.1, hc.2]

/-- After a short Newton step the value is small. -/
theorem Shape.newton (H : Shape F G l u r δ) {p : ℝ} (hp : p ∈ Icc l u) (hN : p - F p / G p ∈ Icc l u)
    (hd : |F p / G p| ≤ δ) :
    |F (p - F p / G p) / G (p - F p / G p)| ≤ |F p / G p| / 4 := by
  set N := p - F p / G p with hNd
  have hG := H.pos p
  have hGN := H.pos N
  obtain ⟨c, hc, e⟩ := H.mvt p N
  have hcI := uIcc_sub hp hN hc
  have hNp : N - p = -(F p / G p) := by rw [hNd]; ring
  have hcp := uIcc_abs hc
  rw [hNp, abs_neg] at hcp
  have e2 : F N = (G c - G p) * (N - p) := by
    have : F p = -(G p * (N - p)) := by
      rw [hNp]
      field_simp
    linarith
  have h1 := H.ratio c hcI p hp (hcp.1.trans hd)
  have h2 := H.ratio p hp c hcI (by rw [abs_sub_comm]; exact hcp.1.trans hd)
  have h3 := H.ratio p hp N hN (by rw [show p - N = F p / G p by rw [hNd]; ring]; exact hd)
  have h4 : |G c - G p| ≤ G N / 4 := by
    rw [abs_le]
    constructor <;> linarith
  rw [abs_div, abs_of_pos hGN, div_le_iff₀ hGN, e2, abs_mul, hNp, abs_neg]
  have := abs_nonneg (F p / G p)
  nlinarith

/-- A point with a small value is near the root. -/
theorem Shape.near (H : Shape F G l u r δ) (hr : r ∈ Icc l u) {N ε : ℝ} (hN : N ∈ Icc l u) (he : ε ≤ δ)
    (h : |F N| ≤ G N * (ε / 4)) : |N - r| ≤ ε := by
  have hGN := H.pos N
  have hε : 0 ≤ ε := by
    by_contra hc
    have := abs_nonneg (F N)
    nlinarith [not_le.1 hc]
  rcases le_or_gt |N - r| δ with h1 | h1
  · obtain ⟨c, hc, e⟩ := H.mvt r N
    have hcI := uIcc_sub hr hN hc
    have h2 := H.ratio N hN c hcI (by rw [abs_sub_comm]; exact (uIcc_abs hc).2.trans h1)
    rw [H.root, sub_zero] at e
    rw [e, abs_mul, abs_of_pos (H.pos c)] at h
    have hab := abs_nonneg (N - r)
    have h3 : G c * |N - r| ≤ 9 / 8 * G c * (ε / 4) :=
      h.trans (mul_le_mul_of_nonneg_right h2 (by linarith))
    have h4 : G c * |N - r| ≤ G c * (9 / 32 * ε) := by linarith
    have := le_of_mul_le_mul_left h4 (H.pos c)
    linarith
  · exfalso
    -- a point at distance δ from N towards r
    obtain ⟨t, ht, htd, hF⟩ : ∃ t ∈ Icc l u, |t - N| = δ ∧ |F N - F t| ≤ |F N| := by
      rcases le_total r N with h2 | h2
      · rw [abs_of_nonneg (by linarith)] at h1
        have hδ := H.δ0
        refine ⟨N - δ, ⟨by linarith [hr.1], by linarith [hN.2]⟩, by
          rw [show N - δ - N = -δ by ring, abs_neg, abs_of_pos hδ], ?_⟩
        have a1 := H.mono.monotone (show r ≤ N - δ by linarith)
        have a2 := H.mono.monotone (show N - δ ≤ N by linarith)
        rw [H.root] at a1
        rw [abs_of_nonneg (by linarith), abs_of_nonneg (by linarith)]
        linarith
      · rw [abs_of_nonpos (by linarith)] at h1
        have hδ := H.δ0
        refine ⟨N + δ, ⟨by linarith [hN.1], by linarith [hr.2]⟩, by
          rw [show N + δ - N = δ by ring, abs_of_pos hδ], ?_⟩
        have a1 := H.mono.monotone (show N + δ ≤ r by linarith)
        have a2 := H.mono.monotone (show N ≤ N + δ by linarith)
        rw [H.root] at a1
        rw [abs_of_nonpos (by linarith), abs_of_nonpos (by linarith)]
        linarith
    obtain ⟨c, hc, e⟩ := H.mvt t N
    have hcI := uIcc_sub ht hN hc
    have h2 := H.ratio N hN c hcI (by
      rw [abs_sub_comm]; exact (uIcc_abs hc).2.trans (by rw [abs_sub_comm, htd]))
    rw [e, abs_mul, abs_of_pos (H.pos c), abs_sub_comm N t, htd] at hF
    have h3 : G c * δ ≤ 9 / 8 * G c * (ε / 4) :=
      (hF.trans h).trans (mul_le_mul_of_nonneg_right h2 (by linarith))
    have h4 : G c * δ ≤ G c * (9 / 32 * ε) := by linarith
    have := le_of_mul_le_mul_left h4 (H.pos c)
    have := H.δ0
    linarith

/-! ## The loop -/

/-- What always holds. -/
structure Inv (F G : ℝ → ℝ) (l u : ℝ) (s : Root) : Prop where
  hl : l ≤ s.xl
  hu : s.xh ≤ u
  neg : F s.xl < 0
  nonneg : 0 ≤ F s.xh
  rl : s.xl ≤ s.rts
  rh : s.rts ≤ s.xh
  hf : s.f = F s.rts
  hdf : s.df = G s.rts

theorem Inv.xl_lt (H : Shape F G l u r δ) {s : Root} (h : Inv F G l u s) : s.xl < r :=
  H.mono.lt_iff_lt.1 (by rw [H.root]; exact h.neg)

theorem Inv.le_xh (H : Shape F G l u r δ) {s : Root} (h : Inv F G l u s) : r ≤ s.xh :=
  H.mono.le_iff_le.1 (by rw [H.root]; exact h.nonneg)

theorem Inv.rts_mem {s : Root} (h : Inv F G l u s) : s.rts ∈ Icc l u :=
  ⟨h.hl.trans h.rl, h.rh.trans h.hu⟩

/-- The Newton step from `rts`. -/
noncomputable def nt (F G : ℝ → ℝ) (s : Root) : ℝ := F s.rts / G s.rts

theorem move_newton (H : Shape F G l u r δ) {s : Root} (h : Inv F G l u s) (h1 : s.xl < s.rts - nt F G s)
    (h2 : s.rts - nt F G s < s.xh) (h3 : 2 * |nt F G s| ≤ |s.dxold|) :
    rootMove s = .ok (s.rts - nt F G s, nt F G s, decide (s.rts = s.rts - nt F G s)) := by
  have hg := H.pos s.rts
  unfold rootMove
  rw [if_neg, Res.monad_bind_eq, fdiv, if_neg (by rw [h.hdf]; exact hg.ne'), Res.bind_ok, h.hf, h.hdf]
  · rfl
  · rw [h.hf, h.hdf]
    have e1 : F s.rts = G s.rts * nt F G s := by
      unfold nt
      field_simp
    push Not
    constructor
    · rw [e1]
      have a1 : (s.rts - s.xh) * G s.rts - G s.rts * nt F G s = G s.rts * (s.rts - nt F G s - s.xh) := by ring
      have a2 : (s.rts - s.xl) * G s.rts - G s.rts * nt F G s = G s.rts * (s.rts - nt F G s - s.xl) := by ring
      rw [a1, a2]
      have := mul_pos hg (sub_pos.2 h1)
      have := mul_pos hg (sub_pos.2 h2)
      have : (0.0 : ℝ) = 0 := by norm_num
      rw [this]
      nlinarith
    · rw [e1, abs_mul, abs_mul, abs_mul, abs_of_pos hg, show |(2.0 : ℝ)| = 2 by norm_num]
      nlinarith [abs_nonneg (nt F G s)]

theorem move_cases (H : Shape F G l u r δ) {s : Root} (h : Inv F G l u s) :
    rootMove s = .ok ((s.xl + s.xh) / 2, (s.xh - s.xl) / 2, false) ∨
    (s.xl < s.rts - nt F G s ∧ s.rts - nt F G s < s.xh ∧ 2 * |nt F G s| ≤ |s.dxold|) := by
  have hlt : s.xl < s.xh := (h.xl_lt H).trans_le (h.le_xh H)
  have hg := H.pos s.rts
  by_cases hb : ((s.rts - s.xh) * s.df - s.f) * ((s.rts - s.xl) * s.df - s.f) ≥ 0.0 ∨
      |2.0 * s.f| > |s.dxold * s.df|
  · left
    unfold rootMove
    rw [if_pos hb]
    have e : s.xl + 0.5 * (s.xh - s.xl) = (s.xl + s.xh) / 2 := by norm_num; ring
    have e2 : 0.5 * (s.xh - s.xl) = (s.xh - s.xl) / 2 := by norm_num; ring
    have e3 : decide (s.xl = (s.xl + s.xh) / 2) = false := by
      rw [decide_eq_false_iff_not]
      intro hc
      linarith
    dsimp only
    rw [e, e3, e2]
  · right
    push Not at hb
    rw [h.hf, h.hdf] at hb
    have e1 : F s.rts = G s.rts * nt F G s := by
      unfold nt
      field_simp
    rw [e1] at hb
    obtain ⟨b1, b2⟩ := hb
    have a1 : (s.rts - s.xh) * G s.rts - G s.rts * nt F G s = G s.rts * (s.rts - nt F G s - s.xh) := by ring
    have a2 : (s.rts - s.xl) * G s.rts - G s.rts * nt F G s = G s.rts * (s.rts - nt F G s - s.xl) := by ring
    rw [a1, a2] at b1
    have b3 : (s.rts - nt F G s - s.xh) * (s.rts - nt F G s - s.xl) < 0 := by
      by_contra hc
      have := mul_nonneg (mul_pos hg hg).le (not_lt.1 hc)
      norm_num at b1
      linarith
    refine ⟨?_, ?_, ?_⟩
    · by_contra hc
      nlinarith
    · by_contra hc
      nlinarith
    · rw [abs_mul, abs_mul, abs_mul, abs_of_pos hg, show |(2.0 : ℝ)| = 2 by norm_num] at b2
      have : G s.rts * (2 * |nt F G s|) ≤ G s.rts * |s.dxold| := by linarith
      exact le_of_mul_le_mul_left this hg

theorem isZero_iff {a : ℝ} (h0 : 0 < e) (h1 : e < 1) : IsZero a e ↔ |a| ≤ e := by
  unfold IsZero IsEqual
  norm_num
  split_ifs with h
  · rfl
  · constructor
    · intro hh
      nlinarith [abs_nonneg a]
    · intro hh
      linarith

/-- The state after a step to `x`. -/
noncomputable def after (F G : ℝ → ℝ) (s : Root) (x dx : ℝ) : Root :=
  ⟨if F x < 0 then x else s.xl, if F x < 0 then s.xh else x, x, s.dx, dx, F x, G x⟩

theorem loop_succ (hF : ∀ x, d.cdf x = .ok (F x + y)) (hG : ∀ x, d.pdf x = .ok (G x)) (h0 : 0 < e) (h1 : e < 1)
    {s : Root} {x dx : ℝ} {b : Bool} (hm : rootMove s = .ok (x, dx, b)) (n : ℕ) :
    rootLoop d e y (n + 1) s = if b = true ∨ |dx| ≤ e then .ok x else rootLoop d e y n (after F G s x dx) := by
  rw [rootLoop]
  simp only [Res.monad_bind_eq, hm, Res.bind_ok, hF, hG, add_sub_cancel_right]
  cases b
  · by_cases hz : |dx| ≤ e
    · simp [isZero_iff h0 h1, hz]
    · have hb : ¬ ((false : Bool) = true ∨ |dx| ≤ e) := by
        rintro (hc | hc)
        · exact Bool.noConfusion hc
        · exact hz hc
      rw [if_neg hb, if_neg Bool.false_ne_true, if_neg (by rw [isZero_iff h0 h1]; exact hz)]
      unfold after
      by_cases hn : F x < 0
      · rw [if_pos (show F x < 0.0 by norm_num; exact hn), if_pos hn, if_pos hn]
      · rw [if_neg (show ¬ F x < 0.0 by norm_num; exact not_lt.1 hn), if_neg hn, if_neg hn]
  · simp

theorem after_inv (H : Shape F G l u r δ) {s : Root} (h : Inv F G l u s) {x dx : ℝ} (hx : s.xl ≤ x)
    (hx' : x ≤ s.xh) : Inv F G l u (after F G s x dx) := by
  unfold after
  by_cases hn : F x < 0
  · simp only [hn, if_true]
    exact ⟨h.hl.trans hx, h.hu, hn, h.nonneg, le_rfl, hx', rfl, rfl⟩
  · simp only [hn, if_false]
    exact ⟨h.hl, hx'.trans h.hu, h.neg, not_lt.1 hn, hx, le_rfl, rfl, rfl⟩

/-- Newton steps are short and stay where they are taken to. -/
structure Fast (F G : ℝ → ℝ) (l u r δ : ℝ) (s : Root) : Prop where
  inv : Inv F G l u s
  ne : s.rts ≠ r
  inside : s.xl < s.rts - nt F G s ∧ s.rts - nt F G s < s.xh
  old : 2 * |nt F G s| ≤ |s.dxold|
  new : |nt F G s| ≤ |s.dx| / 4
  small : |s.dx| ≤ δ

/-- The state after a short Newton step. -/
theorem fast_after (H : Shape F G l u r δ) {s : Root} (h : Inv F G l u s) (hne : s.rts ≠ r)
    (h1 : s.xl < s.rts - nt F G s) (h2 : s.rts - nt F G s < s.xh) (hd : |nt F G s| ≤ δ)
    (hdx : |nt F G s| ≤ 2 * |s.dx|) : Fast F G l u r δ (after F G s (s.rts - nt F G s) (nt F G s)) := by
  have hinv := after_inv H h (dx := nt F G s) h1.le h2.le
  have hN : s.rts - nt F G s ∈ Icc l u := ⟨h.hl.trans h1.le, h2.le.trans h.hu⟩
  have hk : |nt F G (after F G s (s.rts - nt F G s) (nt F G s))| ≤ |nt F G s| / 4 :=
    H.newton h.rts_mem hN hd
  have hNr : s.rts - nt F G s ≠ r := by
    rcases H.side with hs | hs
    · exact (hs _ h.rts_mem hne).ne
    · exact (hs _ h.rts_mem hne).ne'
  refine ⟨hinv, hNr, ?_, ?_, hk, hd⟩
  · set N := s.rts - nt F G s with hNd
    have hr1 := hinv.xl_lt H
    have hr2 := hinv.le_xh H
    have hrt : (after F G s N (nt F G s)).rts = N := rfl
    have hnt : nt F G (after F G s N (nt F G s)) = F N / G N := rfl
    rcases H.side with hs | hs
    · have a1 : N < r := hs _ h.rts_mem hne
      have a2 : F N < 0 := by rw [← H.root]; exact H.mono a1
      have a3 := hs N hN hNr
      have hx : (after F G s N (nt F G s)).xl = N := by simp [after, a2]
      rw [hx, hrt, hnt]
      refine ⟨?_, a3.trans_le hr2⟩
      have := div_neg_of_neg_of_pos a2 (H.pos N)
      linarith
    · have a1 : r < N := hs _ h.rts_mem hne
      have a2 : 0 < F N := by rw [← H.root]; exact H.mono a1
      have a3 := hs N hN hNr
      have hx : (after F G s N (nt F G s)).xh = N := by simp [after, a2.le]
      rw [hx, hrt, hnt]
      refine ⟨hr1.trans a3, ?_⟩
      have := div_pos a2 (H.pos N)
      linarith
  · have : |(after F G s (s.rts - nt F G s) (nt F G s)).dxold| = |s.dx| := rfl
    rw [this]
    have := abs_nonneg (nt F G s)
    linarith

theorem newton_near (H : Shape F G l u r δ) {s : Root} (h : Inv F G l u s)
    (h1 : s.xl < s.rts - nt F G s) (h2 : s.rts - nt F G s < s.xh) (he : e ≤ δ) (hd : |nt F G s| ≤ e) :
    |s.rts - nt F G s - r| ≤ e := by
  have hN : s.rts - nt F G s ∈ Icc l u := ⟨h.hl.trans h1.le, h2.le.trans h.hu⟩
  have hr : r ∈ Icc l u := ⟨h.hl.trans (h.xl_lt H).le, (h.le_xh H).trans h.hu⟩
  have hk : |F (s.rts - nt F G s) / G (s.rts - nt F G s)| ≤ |nt F G s| / 4 :=
    H.newton h.rts_mem hN (hd.trans he)
  refine H.near hr hN he ?_
  have hg := H.pos (s.rts - nt F G s)
  rw [abs_div, abs_of_pos hg, div_le_iff₀ hg] at hk
  refine hk.trans ?_
  have : |nt F G s| / 4 ≤ e / 4 := by linarith
  nlinarith

theorem fast_sat (H : Shape F G l u r δ) (hF : ∀ x, d.cdf x = .ok (F x + y)) (hG : ∀ x, d.pdf x = .ok (G x))
    (h0 : 0 < e) (h1 : e < 1) (he : e ≤ δ) (n : ℕ) : ∀ s, Fast F G l u r δ s → |s.dx| ≤ e * 4 ^ n →
      (rootLoop d e y (n + 1) s).Sat fun x => |x - r| ≤ e := by
  induction n with
  | zero =>
    intro s hs hd
    have hm := move_newton H hs.inv hs.inside.1 hs.inside.2 hs.old
    have hn : |nt F G s| ≤ e := by
      have := hs.new
      have := abs_nonneg s.dx
      norm_num at hd
      linarith
    rw [loop_succ hF hG h0 h1 hm, if_pos (Or.inr hn)]
    exact ⟨_, rfl, newton_near H hs.inv hs.inside.1 hs.inside.2 he hn⟩
  | succ n ih =>
    intro s hs hd
    have hm := move_newton H hs.inv hs.inside.1 hs.inside.2 hs.old
    rw [loop_succ hF hG h0 h1 hm]
    have hab := abs_nonneg s.dx
    by_cases hn : |nt F G s| ≤ e
    · rw [if_pos (Or.inr hn)]
      exact ⟨_, rfl, newton_near H hs.inv hs.inside.1 hs.inside.2 he hn⟩
    · have hne : ¬ (decide (s.rts = s.rts - nt F G s) = true ∨ |nt F G s| ≤ e) := by
        rintro (hc | hc)
        · have : nt F G s = 0 := by
            have := of_decide_eq_true hc
            linarith
          rw [this, abs_zero] at hn
          exact hn h0.le
        · exact hn hc
      rw [if_neg hne]
      refine ih _ (fast_after H hs.inv hs.ne hs.inside.1 hs.inside.2 ?_ ?_) ?_
      · linarith [hs.new, hs.small]
      · linarith [hs.new]
      · have e2 : |(after F G s (s.rts - nt F G s) (nt F G s)).dx| = |nt F G s| := rfl
        rw [e2]
        have := hs.new
        rw [pow_succ] at hd
        linarith

/-- The width of the bracket. -/
def wd (s : Root) : ℝ := s.xh - s.xl

/-- What is halved by every step that does not end the search. -/
noncomputable def pot (δ e : ℝ) (s : Root) : ℝ :=
  (max (wd s) δ / δ) ^ 21 * (max |s.dxold| δ * max |s.dx| δ / δ ^ 2) * (max (wd s) e / e)

theorem one_le_pot (hδ : 0 < δ) (he : 0 < e) (s : Root) : 1 ≤ pot δ e s := by
  have a1 : 1 ≤ max (wd s) δ / δ := by rw [le_div_iff₀ hδ, one_mul]; exact le_max_right _ _
  have a2 : 1 ≤ max (wd s) e / e := by rw [le_div_iff₀ he, one_mul]; exact le_max_right _ _
  have a3 : 1 ≤ max |s.dxold| δ * max |s.dx| δ / δ ^ 2 := by
    rw [le_div_iff₀ (by positivity), one_mul, sq]
    exact mul_le_mul (le_max_right _ _) (le_max_right _ _) hδ.le (hδ.le.trans (le_max_right _ _))
  have a4 := one_le_pow₀ a1 (n := 21)
  exact one_le_mul_of_one_le_of_one_le (one_le_mul_of_one_le_of_one_le a4 a3) a2

/-- What holds before the Newton steps are short. -/
structure Slow (F G : ℝ → ℝ) (l u δ W : ℝ) (s : Root) : Prop where
  inv : Inv F G l u s
  wide : wd s ≤ W
  dx : |s.dx| ≤ W
  long : wd s ≤ |s.dx| ∨ δ < |s.dx|

theorem after_wd (s : Root) {x dx : ℝ} (h1 : s.xl ≤ x) (h2 : x ≤ s.xh) : wd (after F G s x dx) ≤ wd s := by
  unfold wd after
  dsimp only
  split_ifs <;> linarith

theorem after_mid (s : Root) {dx : ℝ} : wd (after F G s ((s.xl + s.xh) / 2) dx) = wd s / 2 := by
  unfold wd after
  dsimp only
  split_ifs <;> ring

theorem slow_step (H : Shape F G l u r δ) (hF : ∀ x, d.cdf x = .ok (F x + y)) (hG : ∀ x, d.pdf x = .ok (G x))
    (h0 : 0 < e) (h1 : e < 1) (he : e ≤ δ) {W : ℝ} (hW : δ ≤ W) (hW2 : W ≤ 2 ^ 10 * δ) {k : ℕ}
    (hk : δ ≤ e * 4 ^ k) (n : ℕ) {s : Root} (hs : Slow F G l u δ W s)
    (key : ∀ x dx, Slow F G l u δ W (after F G s x dx) → pot δ e (after F G s x dx) ≤ pot δ e s / 2 →
        (rootLoop d e y (n + (k + 1)) (after F G s x dx)).Sat fun x => |x - r| ≤ e) :
      (rootLoop d e y (n + 1 + (k + 1)) s).Sat fun x => |x - r| ≤ e := by
  have hδ := H.δ0
  have hinv := hs.inv
  have hwd : 0 < wd s := sub_pos.2 ((hinv.xl_lt H).trans_le (hinv.le_xh H))
  have hr1 := (hinv.xl_lt H).le
  have hr2 := hinv.le_xh H
  rw [show n + 1 + (k + 1) = (n + (k + 1)) + 1 by ring]
  rcases move_cases H hinv with hm | ⟨hN1, hN2, hold⟩
  · rw [loop_succ hF hG h0 h1 hm]
    have hdw : |(s.xh - s.xl) / 2| = wd s / 2 := by
      rw [abs_of_pos (by unfold wd at hwd; linarith)]
      rfl
    by_cases hsm : wd s / 2 ≤ e
    · rw [if_pos (Or.inr (by rw [hdw]; exact hsm))]
      refine ⟨_, rfl, ?_⟩
      unfold wd at hsm
      show |(s.xl + s.xh) / 2 - r| ≤ e
      rw [abs_le]
      constructor <;> linarith
    · rw [if_neg (by rw [hdw]; simpa using hsm)]
      push Not at hsm
      refine key _ _ ⟨after_inv H hinv (by unfold wd at hwd; linarith) (by unfold wd at hwd; linarith), ?_, ?_, ?_⟩ ?_
      · rw [after_mid]
        linarith [hs.wide]
      · have : |(after F G s ((s.xl + s.xh) / 2) ((s.xh - s.xl) / 2)).dx| = wd s / 2 := hdw
        rw [this]
        linarith [hs.wide]
      · left
        have : |(after F G s ((s.xl + s.xh) / 2) ((s.xh - s.xl) / 2)).dx| = wd s / 2 := hdw
        rw [this, after_mid]
      · have e1 : |(after F G s ((s.xl + s.xh) / 2) ((s.xh - s.xl) / 2)).dx| = wd s / 2 := hdw
        have e2 : (after F G s ((s.xl + s.xh) / 2) ((s.xh - s.xl) / 2)).dxold = s.dx := rfl
        unfold pot
        rw [e1, e2, after_mid, max_eq_left (show e ≤ wd s by linarith), max_eq_left hsm.le]
        have hq : 1 ≤ max |s.dxold| δ * max |s.dx| δ / δ ^ 2 := by
          rw [le_div_iff₀ (by positivity), one_mul, sq]
          exact mul_le_mul (le_max_right _ _) (le_max_right _ _) hδ.le (hδ.le.trans (le_max_right _ _))
        have hwe : 0 < wd s / e := by positivity
        rw [show wd s / 2 / e = wd s / e / 2 by ring]
        rcases lt_or_ge δ (wd s / 2) with hc | hc
        · rw [max_eq_left hc.le, max_eq_left (show δ ≤ wd s by linarith)]
          have hq' : max |s.dx| δ * (wd s / 2) / δ ^ 2 ≤ 2 ^ 20 := by
            rw [div_le_iff₀ (by positivity)]
            have b1 : max |s.dx| δ ≤ 2 ^ 10 * δ := max_le (hs.dx.trans hW2) (hW.trans hW2)
            have b2 : wd s / 2 ≤ 2 ^ 10 * δ := by linarith [hs.wide]
            calc max |s.dx| δ * (wd s / 2) ≤ (2 ^ 10 * δ) * (2 ^ 10 * δ) :=
                  mul_le_mul b1 b2 (by linarith) (by positivity)
              _ = 2 ^ 20 * δ ^ 2 := by ring
          rw [show wd s / 2 / δ = wd s / δ / 2 by ring, div_pow]
          have hp21 : 0 < (wd s / δ) ^ 21 := by positivity
          calc (wd s / δ) ^ 21 / 2 ^ 21 * (max |s.dx| δ * (wd s / 2) / δ ^ 2) * (wd s / e / 2)
              ≤ (wd s / δ) ^ 21 / 2 ^ 21 * (2 ^ 20 * (max |s.dxold| δ * max |s.dx| δ / δ ^ 2)) * (wd s / e / 2) := by
                gcongr
                linarith
            _ ≤ (wd s / δ) ^ 21 * (max |s.dxold| δ * max |s.dx| δ / δ ^ 2) * (wd s / e) / 2 := by
                have : 0 ≤ (wd s / δ) ^ 21 * (max |s.dxold| δ * max |s.dx| δ / δ ^ 2) * (wd s / e) := by positivity
                linarith
        · rw [max_eq_right hc]
          have c1 : δ / δ ≤ max (wd s) δ / δ := by gcongr; exact le_max_right _ _
          have c2 : max |s.dx| δ * δ / δ ^ 2 ≤ max |s.dxold| δ * max |s.dx| δ / δ ^ 2 := by
            rw [mul_comm]
            gcongr
            exact le_max_right _ _
          calc (δ / δ) ^ 21 * (max |s.dx| δ * δ / δ ^ 2) * (wd s / e / 2)
              ≤ (max (wd s) δ / δ) ^ 21 * (max |s.dxold| δ * max |s.dx| δ / δ ^ 2) * (wd s / e / 2) := by
                gcongr
            _ = _ := by ring
  · have hm := move_newton H hinv hN1 hN2 hold
    rw [loop_succ hF hG h0 h1 hm]
    have hlt : |nt F G s| < wd s := by
      have a1 := hinv.rl
      have a2 := hinv.rh
      unfold wd
      rw [abs_lt]
      constructor <;> linarith
    by_cases hz : |nt F G s| ≤ e
    · rw [if_pos (Or.inr hz)]
      exact ⟨_, rfl, newton_near H hinv hN1 hN2 he hz⟩
    · have hnz : nt F G s ≠ 0 := by
        intro hc
        rw [hc, abs_zero] at hz
        exact hz h0.le
      have hne : ¬ (decide (s.rts = s.rts - nt F G s) = true ∨ |nt F G s| ≤ e) := by
        rintro (hc | hc)
        · have := of_decide_eq_true hc
          exact hnz (by linarith)
        · exact hz hc
      have hrr : s.rts ≠ r := by
        intro hc
        refine hnz ?_
        unfold nt
        rw [hc, H.root, zero_div]
      rw [if_neg hne]
      rcases le_or_gt |nt F G s| δ with hd | hd
      · have hfa := fast_after H hinv hrr hN1 hN2 hd (by
          have := abs_nonneg s.dx
          rcases hs.long with hh | hh <;> linarith)
        have hdx : |(after F G s (s.rts - nt F G s) (nt F G s)).dx| = |nt F G s| := rfl
        rw [← add_assoc]
        refine fast_sat H hF hG h0 h1 he _ _ hfa ?_
        rw [hdx]
        refine (hd.trans hk).trans ?_
        gcongr
        · norm_num
        · omega
      · refine key _ _ ⟨after_inv H hinv hN1.le hN2.le, (after_wd s hN1.le hN2.le).trans hs.wide, ?_, Or.inr hd⟩ ?_
        · exact hlt.le.trans hs.wide
        · have e1 : |(after F G s (s.rts - nt F G s) (nt F G s)).dx| = |nt F G s| := rfl
          have e2 : (after F G s (s.rts - nt F G s) (nt F G s)).dxold = s.dx := rfl
          have hw := after_wd (F := F) (G := G) s (dx := nt F G s) hN1.le hN2.le
          unfold pot
          rw [e1, e2, max_eq_left hd.le]
          have hwp : 0 < max (wd s) e := lt_max_of_lt_right h0
          have c1 : max (wd (after F G s (s.rts - nt F G s) (nt F G s))) δ / δ ≤ max (wd s) δ / δ := by
            gcongr
          have c1' : 0 ≤ max (wd (after F G s (s.rts - nt F G s) (nt F G s))) δ / δ :=
            div_nonneg (hδ.le.trans (le_max_right _ _)) hδ.le
          have c3 : max (wd (after F G s (s.rts - nt F G s) (nt F G s))) e / e ≤ max (wd s) e / e := by
            gcongr
          have c3' : 0 ≤ max (wd (after F G s (s.rts - nt F G s) (nt F G s))) e / e :=
            div_nonneg (h0.le.trans (le_max_right _ _)) h0.le
          have c2 : max |s.dx| δ * |nt F G s| / δ ^ 2 ≤ max |s.dxold| δ * max |s.dx| δ / δ ^ 2 / 2 := by
            have b1 : |nt F G s| ≤ max |s.dxold| δ / 2 := by
              have := le_max_left |s.dxold| δ
              linarith
            have b2 : 0 ≤ max |s.dx| δ := hδ.le.trans (le_max_right _ _)
            rw [div_div, mul_comm (δ ^ 2) 2, ← div_div]
            gcongr
            nlinarith
          have c4 : 0 ≤ max (wd s) δ / δ := c1'.trans c1
          have c5 : 0 ≤ max |s.dxold| δ * max |s.dx| δ / δ ^ 2 / 2 := by positivity
          calc _ ≤ (max (wd s) δ / δ) ^ 21 * (max |s.dxold| δ * max |s.dx| δ / δ ^ 2 / 2) * (max (wd s) e / e) := by
                gcongr
            _ = _ := by ring

theorem slow_sat (H : Shape F G l u r δ) (hF : ∀ x, d.cdf x = .ok (F x + y)) (hG : ∀ x, d.pdf x = .ok (G x))
    (h0 : 0 < e) (h1 : e < 1) (he : e ≤ δ) {W : ℝ} (hW : δ ≤ W) (hW2 : W ≤ 2 ^ 10 * δ) {k : ℕ}
    (hk : δ ≤ e * 4 ^ k) (n : ℕ) : ∀ s, Slow F G l u δ W s → pot δ e s ≤ 2 ^ n →
      (rootLoop d e y (n + 1 + (k + 1)) s).Sat fun x => |x - r| ≤ e := by
  induction n with
  | zero =>
    intro s hs hp
    refine slow_step H hF hG h0 h1 he hW hW2 hk 0 hs fun x dx _ hp' => ?_
    exact absurd (one_le_pot H.δ0 h0 (after F G s x dx)) (by norm_num at hp; linarith)
  | succ n ih =>
    intro s hs hp
    refine slow_step H hF hG h0 h1 he hW hW2 hk (n + 1) hs fun x dx hs' hp' => ?_
    exact ih _ hs' (by rw [pow_succ] at hp; linarith)

end Verif.RootPhi
