import Verif.Model.Fft
import Verif.Lemmas.Fourier
import Verif.Lemmas.Outcome

/-!
# Flat real transforms

The programs on flat arrays (scale, transform, multiply, transform back, scale) are the same in two
and three dimensions. They are verified once, for any `Flat` layout of a periodic box.
-/

namespace Verif

open Finset ComplexConjugate

/-! ### Element-wise loops -/

theorem forRange_map_sat {α : Type} (f : ℕ → α → α) (m : ℕ) (a : List α) (hm : m ≤ a.length) :
    (forRange 0 m (fun i a => (rd a i).bind fun x => wr a i (f i x)) a).Sat fun b =>
      b.length = a.length ∧ ∀ i : ℕ, b[i]? = if i < m then (a[i]?).map (f i) else a[i]? := by
  refine (forRange_sat (fun j (b : List α) => b.length = a.length ∧
    ∀ i : ℕ, b[i]? = if i < j then (a[i]?).map (f i) else a[i]?) (Nat.zero_le m) ⟨rfl, by simp⟩ ?_)
  rintro i b - hi ⟨hl, hb⟩
  have hib : i < b.length := by omega
  have hia : i < a.length := by omega
  have hbi : b[i] = a[i] := by
    have := hb i
    rw [if_neg (lt_irrefl _), List.getElem?_eq_getElem hib, List.getElem?_eq_getElem hia] at this
    exact Option.some.inj this
  rw [rd_ok hib, Res.bind_ok, wr_ok hib, Res.sat_ok]
  refine ⟨by simp [hl], fun k => ?_⟩
  rw [List.getElem?_set]
  by_cases hk : i = k
  · subst hk
    simp [hib, hbi, hia]
  · rw [if_neg hk, hb k]
    have : (k < i + 1) ↔ k < i := by omega
    simp [this]

theorem scaleLoop_sat (s : ℝ) (a : List ℝ) :
    (scaleLoop a.length s a).Sat fun b => b.length = a.length ∧
      ∀ i : ℕ, b[i]? = (a[i]?).map (· * s) := by
  refine (forRange_map_sat (fun _ x => x * s) a.length a le_rfl).mono ?_
  rintro b ⟨h1, h2⟩
  refine ⟨h1, fun i => ?_⟩
  rw [h2 i]
  split
  · rfl
  · rw [List.getElem?_eq_none (by omega)]; rfl

theorem rd_bind_wr_congr {α β : Type} {a : List α} {i : ℕ} {y : β} {b : List β}
    (hb : b[i]? = some y) (f : α → β → α) :
    ((rd a i).bind fun x => (rd b i).bind fun y => wr a i (f x y))
      = (rd a i).bind fun x => wr a i (f x y) := by
  have : rd b i = .ok y := rd_eq_ok.2 hb
  rw [this]; rfl

theorem mulLoop_sat (a h : List ℂ) (hl : h.length = a.length) :
    (mulLoop a.length a h).Sat fun b => b.length = a.length ∧
      ∀ (i : ℕ) x y, a[i]? = some x → h[i]? = some y → b[i]? = some (x * y) := by
  have e : mulLoop a.length a h = forRange 0 a.length (fun i a => (rd a i).bind fun x =>
      wr a i ((fun i x => x * h.getD i 0) i x)) a := by
    refine forRange_congr fun i s _ hi => ?_
    rw [rd_bind_wr_congr (f := fun x y => x * y) (y := h.getD i 0)]
    rw [List.getD_eq_getElem?_getD, List.getElem?_eq_getElem (by omega)]
    rfl
  rw [e]
  refine (forRange_map_sat (fun i x => x * h.getD i 0) a.length a le_rfl).mono ?_
  rintro b ⟨h1, h2⟩
  refine ⟨h1, fun i x y hx hy => ?_⟩
  have hi : i < a.length := by
    by_contra hc
    rw [List.getElem?_eq_none (by omega)] at hx
    simp at hx
  rw [h2 i, if_pos hi, hx]
  simp [List.getD_eq_getElem?_getD, hy]

theorem mulSqrtLoop_eq (a h : List ℂ) (m : ℕ) :
    mulSqrtLoop m a h = mulLoop m a (h.map csqrt) := by
  refine forRange_congr fun i s _ _ => ?_
  congr 1
  funext x
  simp only [rd, List.getElem?_map]
  cases h[i]? <;> rfl

/-! ### Layouts -/

/-- A flat layout of the real data and of the stored half of the spectrum, with the two transforms
on flat arrays. -/
structure Flat {G : Type} [AddCommGroup G] (P : Pairing G) where
  M : ℕ
  half : Finset G
  pos : G → ℕ
  cpos : G → ℕ
  half_sub : half ⊆ P.box
  pos_lt : ∀ x ∈ P.box, pos x < P.N
  pos_surj : ∀ m < P.N, ∃ x ∈ P.box, pos x = m
  cpos_lt : ∀ k ∈ half, cpos k < M
  cpos_surj : ∀ m < M, ∃ k ∈ half, cpos k = m
  r2c : List ℝ → List ℂ
  c2r : List ℂ → List ℝ × List ℂ
  r2c_length : ∀ a, a.length = P.N → (r2c a).length = M
  r2c_value : ∀ a, a.length = P.N → ∀ k ∈ half,
    (r2c a)[cpos k]? = some (P.dft (fun x => (a.getD (pos x) 0 : ℂ)) k)
  c2r_length : ∀ z, z.length = M → (c2r z).1.length = P.N ∧ (c2r z).2.length = M
  c2r_value : ∀ z (Z : G → ℂ), z.length = M → (∀ k l, P.per (k - l) → Z k = Z l) →
    (∀ k, Z (-k) = conj (Z k)) → (∀ k ∈ half, z[cpos k]? = some (Z k)) →
    ∀ x ∈ P.box, ∃ r, (c2r z).1[pos x]? = some r ∧ (r : ℂ) = P.idft Z x

namespace Flat

variable {G : Type} [AddCommGroup G] {P : Pairing G} (L : Flat P)

/-- The array `a` holds the function `f` on the box. -/
def Holds (a : List ℝ) (f : G → ℝ) : Prop := a.length = P.N ∧ ∀ x ∈ P.box, a[L.pos x]? = some (f x)

/-- The half array `z` holds the spectrum `Z`. -/
def CHolds (z : List ℂ) (Z : G → ℂ) : Prop := z.length = L.M ∧ ∀ k ∈ L.half, z[L.cpos k]? = some (Z k)

theorem Holds.dft_eq {L : Flat P} {a : List ℝ} {f : G → ℝ} (h : L.Holds a f) (k : G) :
    P.dft (fun x => (a.getD (L.pos x) 0 : ℂ)) k = P.dft (fun x => (f x : ℂ)) k := by
  unfold Pairing.dft
  refine Finset.sum_congr rfl fun x hx => ?_
  simp [List.getD_eq_getElem?_getD, h.2 x hx]

theorem Holds.unique {L : Flat P} {a b : List ℝ} {f : G → ℝ} (ha : L.Holds a f)
    (hb : L.Holds b f) : a = b := by
  apply List.ext_getElem?
  intro m
  by_cases hm : m < P.N
  · obtain ⟨x, hx, rfl⟩ := L.pos_surj m hm
    rw [ha.2 x hx, hb.2 x hx]
  · rw [List.getElem?_eq_none (by rw [ha.1]; omega), List.getElem?_eq_none (by rw [hb.1]; omega)]

/-- Any array of the right length holds something. -/
theorem holds_self (a : List ℝ) (ha : a.length = P.N) : L.Holds a (fun x => a.getD (L.pos x) 0) := by
  refine ⟨ha, fun x hx => ?_⟩
  have := L.pos_lt x hx
  simp only [List.getD_eq_getElem?_getD, List.getElem?_eq_getElem (show L.pos x < a.length by omega),
    Option.getD_some]

theorem scale_holds {a : List ℝ} {f : G → ℝ} (h : L.Holds a f) (s : ℝ) :
    (scaleLoop P.N s a).Sat fun b => L.Holds b (fun x => f x * s) := by
  have := scaleLoop_sat s a
  rw [h.1] at this
  refine this.mono ?_
  rintro b ⟨h1, h2⟩
  refine ⟨h1, fun x hx => ?_⟩
  rw [h2, h.2 x hx]
  rfl

theorem r2c_holds {a : List ℝ} {f : G → ℝ} (h : L.Holds a f) :
    L.CHolds (L.r2c a) (fun k => P.dft (fun x => (f x : ℂ)) k) := by
  refine ⟨L.r2c_length a h.1, fun k hk => ?_⟩
  rw [L.r2c_value a h.1 k hk, h.dft_eq]

theorem mul_holds {a h : List ℂ} {A H : G → ℂ} (ha : L.CHolds a A) (hh : L.CHolds h H) :
    (mulLoop L.M a h).Sat fun b => L.CHolds b (fun k => A k * H k) := by
  have := mulLoop_sat a h (by rw [ha.1, hh.1])
  rw [ha.1] at this
  refine this.mono ?_
  rintro b ⟨h1, h2⟩
  exact ⟨h1, fun k hk => h2 _ _ _ (ha.2 k hk) (hh.2 k hk)⟩

/-- The inverse transform of a Hermitian spectrum. -/
theorem c2r_holds {z : List ℂ} {Z : G → ℂ} (h : L.CHolds z Z)
    (hper : ∀ k l, P.per (k - l) → Z k = Z l) (hherm : ∀ k, Z (-k) = conj (Z k)) :
    L.Holds (L.c2r z).1 (fun x => (P.idft Z x).re) := by
  refine ⟨(L.c2r_length z h.1).1, fun x hx => ?_⟩
  obtain ⟨r, hr, e⟩ := L.c2r_value z Z h.1 hper hherm h.2 x hx
  simp only [hr, ← e, Complex.ofReal_re]

end Flat

/-! ### The layouts of the FFTW arrays -/

open Spec

theorem turn_add (s t : ℝ) : turn (s + t) = turn s * turn t := by
  unfold turn
  rw [← Complex.exp_add]
  congr 1
  push_cast
  ring

theorem root_eq_turn (n : ℕ) (k x : ℤ) : root n k x = turn ((k : ℝ) * x / n) := by
  unfold root turn
  congr 1
  push_cast
  ring

theorem root_neg_eq_turn (n : ℕ) (k x : ℕ) :
    root n (k : ℤ) (-(x : ℤ)) = turn (-((k : ℝ) * x / n)) := by
  rw [root_eq_turn]
  congr 1
  push_cast
  ring

theorem root_nat_eq_turn (n : ℕ) (k x : ℕ) :
    root n (k : ℤ) (x : ℤ) = turn ((k : ℝ) * x / n) := by
  rw [root_eq_turn]
  congr 1

theorem opp_cast {n : ℕ} (_hn : 0 < n) (k : ℕ) (hk : k < n) :
    (n : ℤ) ∣ (opp n k : ℤ) - (-(k : ℤ)) := by
  unfold opp
  by_cases h : k = 0
  · subst h; simp
  · rw [Nat.mod_eq_of_lt (by omega)]
    refine ⟨1, ?_⟩
    omega

theorem mem_cyc {n : ℕ} {hn : 0 < n} {x : ℤ} : x ∈ (cyc n hn).box ↔ ∃ m : ℕ, m < n ∧ (m : ℤ) = x := by
  simp only [cyc, mem_map, mem_range]
  rfl

theorem mem_cyc_nat {n : ℕ} {hn : 0 < n} {m : ℕ} : (m : ℤ) ∈ (cyc n hn).box ↔ m < n := by
  rw [mem_cyc]
  constructor
  · rintro ⟨m', h, e⟩
    have : m' = m := by exact_mod_cast e
    omega
  · exact fun h => ⟨m, h, rfl⟩

theorem cyc_idft {n : ℕ} (hn : 0 < n) (Z : ℤ → ℂ) (x : ℕ) :
    (cyc n hn).idft Z x = idft1 n (fun k => Z k) x := by
  unfold Pairing.idft idft1
  rw [cyc_sum hn (fun k => Z k * (cyc n hn).e k x)]
  exact Finset.sum_congr rfl fun k _ => by
    rw [← root_nat_eq_turn]; rfl

theorem cyc_dft {n : ℕ} (hn : 0 < n) (a : ℤ → ℂ) (k : ℕ) :
    (cyc n hn).dft a k = dft1 n (fun x => a x) k := by
  unfold Pairing.dft dft1
  rw [cyc_sum hn (fun x => a x * (cyc n hn).e k (-x))]
  exact Finset.sum_congr rfl fun x _ => by
    rw [← root_neg_eq_turn]; rfl

/-- The two-dimensional box, slow index first. -/
noncomputable def box2 (n0 n1 : ℕ) (h0 : 0 < n0) (h1 : 0 < n1) : Pairing (ℤ × ℤ) :=
  (cyc n0 h0).prod (cyc n1 h1)

theorem mem_box2 {n0 n1 : ℕ} {h0 : 0 < n0} {h1 : 0 < n1} {x : ℤ × ℤ} :
    x ∈ (box2 n0 n1 h0 h1).box ↔ ∃ a b : ℕ, a < n0 ∧ b < n1 ∧ x = ((a : ℤ), (b : ℤ)) := by
  simp only [box2, Pairing.prod, mem_product, mem_cyc]
  constructor
  · rintro ⟨⟨a, ha, e⟩, ⟨b, hb, e'⟩⟩
    exact ⟨a, b, ha, hb, Prod.ext e.symm e'.symm⟩
  · rintro ⟨a, b, ha, hb, rfl⟩
    exact ⟨⟨a, ha, rfl⟩, ⟨b, hb, rfl⟩⟩

theorem box2_sum {n0 n1 : ℕ} (h0 : 0 < n0) (h1 : 0 < n1) (f : ℤ × ℤ → ℂ) :
    ∑ x ∈ (box2 n0 n1 h0 h1).box, f x
      = ∑ a ∈ range n0, ∑ b ∈ range n1, f ((a : ℤ), (b : ℤ)) := by
  have : (box2 n0 n1 h0 h1).box = (cyc n0 h0).box ×ˢ (cyc n1 h1).box := rfl
  rw [this, Finset.sum_product, cyc_sum h0 (fun a => ∑ y ∈ (cyc n1 h1).box, f (a, y))]
  exact Finset.sum_congr rfl fun a _ => cyc_sum h1 (fun b => f (a, b))

theorem box2_idft {n0 n1 : ℕ} (h0 : 0 < n0) (h1 : 0 < n1) (Z : ℤ × ℤ → ℂ) (x0 x1 : ℕ) :
    (box2 n0 n1 h0 h1).idft Z ((x0 : ℤ), (x1 : ℤ)) = idft2 n0 n1 (fun a b => Z (a, b)) x0 x1 := by
  unfold Pairing.idft idft2
  rw [box2_sum]
  refine Finset.sum_congr rfl fun a _ => Finset.sum_congr rfl fun b _ => ?_
  rw [turn_add, ← root_nat_eq_turn, ← root_nat_eq_turn]; rfl

theorem box2_dft {n0 n1 : ℕ} (h0 : 0 < n0) (h1 : 0 < n1) (f : ℤ × ℤ → ℂ) (k0 k1 : ℕ) :
    (box2 n0 n1 h0 h1).dft f ((k0 : ℤ), (k1 : ℤ)) = dft2 n0 n1 (fun a b => f (a, b)) k0 k1 := by
  unfold Pairing.dft dft2
  rw [box2_sum]
  refine Finset.sum_congr rfl fun a _ => Finset.sum_congr rfl fun b _ => ?_
  rw [neg_add, turn_add, ← root_neg_eq_turn, ← root_neg_eq_turn]; rfl

/-- The three-dimensional box, slowest index first. -/
noncomputable def box3 (n0 n1 n2 : ℕ) (h0 : 0 < n0) (h1 : 0 < n1) (h2 : 0 < n2) :
    Pairing (ℤ × ℤ × ℤ) := (cyc n0 h0).prod (box2 n1 n2 h1 h2)

theorem mem_box3 {n0 n1 n2 : ℕ} {h0 : 0 < n0} {h1 : 0 < n1} {h2 : 0 < n2} {x : ℤ × ℤ × ℤ} :
    x ∈ (box3 n0 n1 n2 h0 h1 h2).box ↔
      ∃ a b c : ℕ, a < n0 ∧ b < n1 ∧ c < n2 ∧ x = ((a : ℤ), (b : ℤ), (c : ℤ)) := by
  have : (box3 n0 n1 n2 h0 h1 h2).box = (cyc n0 h0).box ×ˢ (box2 n1 n2 h1 h2).box := rfl
  rw [this, mem_product, mem_cyc, mem_box2]
  constructor
  · rintro ⟨⟨a, ha, e⟩, ⟨b, c, hb, hc, e'⟩⟩
    exact ⟨a, b, c, ha, hb, hc, Prod.ext e.symm e'⟩
  · rintro ⟨a, b, c, ha, hb, hc, rfl⟩
    exact ⟨⟨a, ha, rfl⟩, ⟨b, c, hb, hc, rfl⟩⟩

theorem box3_sum {n0 n1 n2 : ℕ} (h0 : 0 < n0) (h1 : 0 < n1) (h2 : 0 < n2) (f : ℤ × ℤ × ℤ → ℂ) :
    ∑ x ∈ (box3 n0 n1 n2 h0 h1 h2).box, f x
      = ∑ a ∈ range n0, ∑ b ∈ range n1, ∑ c ∈ range n2, f ((a : ℤ), (b : ℤ), (c : ℤ)) := by
  have : (box3 n0 n1 n2 h0 h1 h2).box = (cyc n0 h0).box ×ˢ (box2 n1 n2 h1 h2).box := rfl
  rw [this, Finset.sum_product, cyc_sum h0 (fun a => ∑ y ∈ (box2 n1 n2 h1 h2).box, f (a, y))]
  exact Finset.sum_congr rfl fun a _ => box2_sum h1 h2 (fun b => f (a, b))

theorem box3_idft {n0 n1 n2 : ℕ} (h0 : 0 < n0) (h1 : 0 < n1) (h2 : 0 < n2) (Z : ℤ × ℤ × ℤ → ℂ)
    (x0 x1 x2 : ℕ) :
    (box3 n0 n1 n2 h0 h1 h2).idft Z ((x0 : ℤ), (x1 : ℤ), (x2 : ℤ))
      = idft3 n0 n1 n2 (fun a b c => Z (a, b, c)) x0 x1 x2 := by
  unfold Pairing.idft idft3
  rw [box3_sum]
  refine Finset.sum_congr rfl fun a _ => Finset.sum_congr rfl fun b _ =>
    Finset.sum_congr rfl fun c _ => ?_
  rw [add_assoc, turn_add, turn_add, ← root_nat_eq_turn, ← root_nat_eq_turn, ← root_nat_eq_turn]
  rfl

theorem box3_dft {n0 n1 n2 : ℕ} (h0 : 0 < n0) (h1 : 0 < n1) (h2 : 0 < n2) (f : ℤ × ℤ × ℤ → ℂ)
    (k0 k1 k2 : ℕ) :
    (box3 n0 n1 n2 h0 h1 h2).dft f ((k0 : ℤ), (k1 : ℤ), (k2 : ℤ))
      = dft3 n0 n1 n2 (fun a b c => f (a, b, c)) k0 k1 k2 := by
  unfold Pairing.dft dft3
  rw [box3_sum]
  refine Finset.sum_congr rfl fun a _ => Finset.sum_congr rfl fun b _ =>
    Finset.sum_congr rfl fun c _ => ?_
  rw [add_assoc, neg_add, neg_add, turn_add, turn_add, ← root_neg_eq_turn, ← root_neg_eq_turn,
    ← root_neg_eq_turn]
  rfl

theorem rowMajor_surj {n0 n1 m : ℕ} (h : m < n0 * n1) :
    ∃ a b, a < n0 ∧ b < n1 ∧ a * n1 + b = m := by
  have h1 : 0 < n1 := by
    rcases Nat.eq_zero_or_pos n1 with e | e
    · subst e; simp at h
    · exact e
  exact ⟨m / n1, m % n1, Nat.div_lt_of_lt_mul (by rw [Nat.mul_comm]; exact h), Nat.mod_lt _ h1,
    Nat.div_add_mod' m n1⟩

theorem rowMajor_lt {n0 n1 a b : ℕ} (ha : a < n0) (hb : b < n1) : a * n1 + b < n0 * n1 := by
  have : (a + 1) * n1 ≤ n0 * n1 := Nat.mul_le_mul_right _ ha
  nlinarith

/-- The two-dimensional FFTW arrays. -/
noncomputable def flat2 (F : Fftw) (hF : F.Laws) (n0 n1 : ℕ) (h0 : 0 < n0) (h1 : 0 < n1) :
    Flat (box2 n0 n1 h0 h1) where
  M := n0 * (n1 / 2 + 1)
  half := (box2 n0 n1 h0 h1).box.filter (fun k => k.2.toNat < n1 / 2 + 1)
  pos x := x.1.toNat * n1 + x.2.toNat
  cpos k := k.1.toNat * (n1 / 2 + 1) + k.2.toNat
  half_sub := Finset.filter_subset _ _
  pos_lt x hx := by
    obtain ⟨a, b, ha, hb, rfl⟩ := mem_box2.1 hx
    exact rowMajor_lt ha hb
  pos_surj m hm := by
    obtain ⟨a, b, ha, hb, rfl⟩ := rowMajor_surj (n0 := n0) (n1 := n1) hm
    exact ⟨(a, b), mem_box2.2 ⟨a, b, ha, hb, rfl⟩, rfl⟩
  cpos_lt k hk := by
    obtain ⟨hk, h⟩ := Finset.mem_filter.1 hk
    obtain ⟨a, b, ha, hb, rfl⟩ := mem_box2.1 hk
    exact rowMajor_lt ha h
  cpos_surj m hm := by
    obtain ⟨a, b, ha, hb, rfl⟩ := rowMajor_surj (n0 := n0) (n1 := n1 / 2 + 1) hm
    have hb'' : b < n1 := by omega
    exact ⟨(a, b), Finset.mem_filter.2 ⟨mem_box2.2 ⟨a, b, ha, hb'', rfl⟩, hb⟩, rfl⟩
  r2c := F.r2c2 n0 n1
  c2r := F.c2r2 n0 n1
  r2c_length a ha := hF.r2c2_length n0 n1 a h0 h1 ha
  r2c_value a ha k hk := by
    obtain ⟨hk, h⟩ := Finset.mem_filter.1 hk
    obtain ⟨k0, k1, hk0, hk1, rfl⟩ := mem_box2.1 hk
    rw [box2_dft]
    exact hF.r2c2_value n0 n1 a h0 h1 ha k0 hk0 k1 h
  c2r_length z hz := by
    have := hF.c2r2_length n0 n1 z h0 h1 hz
    exact ⟨this.1, this.2.trans hz⟩
  c2r_value z Z hz hper hherm hval x hx := by
    obtain ⟨x0, x1, hx0, hx1, rfl⟩ := mem_box2.1 hx
    rw [box2_idft]
    refine hF.c2r2_value n0 n1 z (fun a b => Z (a, b)) h0 h1 hz ?_ ?_ x0 hx0 x1 hx1
    · intro k0 hk0 k1 hk1
      rw [← hherm]
      refine hper _ _ ⟨?_, ?_⟩
      · exact opp_cast h0 k0 hk0
      · exact opp_cast h1 k1 hk1
    · intro k0 hk0 k1 hk1
      have hk1' : k1 < n1 := by omega
      exact hval (k0, k1) (Finset.mem_filter.2 ⟨mem_box2.2 ⟨k0, k1, hk0, hk1', rfl⟩, hk1⟩)

/-- The three-dimensional FFTW arrays. -/
noncomputable def flat3 (F : Fftw) (hF : F.Laws) (n0 n1 n2 : ℕ) (h0 : 0 < n0) (h1 : 0 < n1)
    (h2 : 0 < n2) : Flat (box3 n0 n1 n2 h0 h1 h2) where
  M := n0 * n1 * (n2 / 2 + 1)
  half := (box3 n0 n1 n2 h0 h1 h2).box.filter (fun k => k.2.2.toNat < n2 / 2 + 1)
  pos x := (x.1.toNat * n1 + x.2.1.toNat) * n2 + x.2.2.toNat
  cpos k := (k.1.toNat * n1 + k.2.1.toNat) * (n2 / 2 + 1) + k.2.2.toNat
  half_sub := Finset.filter_subset _ _
  pos_lt x hx := by
    obtain ⟨a, b, c, ha, hb, hc, rfl⟩ := mem_box3.1 hx
    have : (box3 n0 n1 n2 h0 h1 h2).N = n0 * n1 * n2 := (Nat.mul_assoc _ _ _).symm
    rw [this]
    exact rowMajor_lt (rowMajor_lt ha hb) hc
  pos_surj m hm := by
    have : (box3 n0 n1 n2 h0 h1 h2).N = n0 * n1 * n2 := (Nat.mul_assoc _ _ _).symm
    rw [this] at hm
    obtain ⟨q, c, hq, hc, rfl⟩ := rowMajor_surj hm
    obtain ⟨a, b, ha, hb, rfl⟩ := rowMajor_surj hq
    exact ⟨(a, b, c), mem_box3.2 ⟨a, b, c, ha, hb, hc, rfl⟩, rfl⟩
  cpos_lt k hk := by
    obtain ⟨hk, h⟩ := Finset.mem_filter.1 hk
    obtain ⟨a, b, c, ha, hb, hc, rfl⟩ := mem_box3.1 hk
    exact rowMajor_lt (rowMajor_lt ha hb) h
  cpos_surj m hm := by
    obtain ⟨q, c, hq, hc, rfl⟩ := rowMajor_surj hm
    obtain ⟨a, b, ha, hb, rfl⟩ := rowMajor_surj hq
    have hc' : c < n2 := by omega
    exact ⟨(a, b, c), Finset.mem_filter.2 ⟨mem_box3.2 ⟨a, b, c, ha, hb, hc', rfl⟩, hc⟩, rfl⟩
  r2c := F.r2c3 n0 n1 n2
  c2r := F.c2r3 n0 n1 n2
  r2c_length a ha := hF.r2c3_length n0 n1 n2 a h0 h1 h2 (ha.trans (Nat.mul_assoc _ _ _).symm)
  r2c_value a ha k hk := by
    obtain ⟨hk, h⟩ := Finset.mem_filter.1 hk
    obtain ⟨k0, k1, k2, hk0, hk1, hk2, rfl⟩ := mem_box3.1 hk
    rw [box3_dft]
    exact hF.r2c3_value n0 n1 n2 a h0 h1 h2 (ha.trans (Nat.mul_assoc _ _ _).symm) k0 hk0 k1 hk1 k2 h
  c2r_length z hz := by
    have := hF.c2r3_length n0 n1 n2 z h0 h1 h2 hz
    exact ⟨this.1.trans (Nat.mul_assoc _ _ _), this.2.trans hz⟩
  c2r_value z Z hz hper hherm hval x hx := by
    obtain ⟨x0, x1, x2, hx0, hx1, hx2, rfl⟩ := mem_box3.1 hx
    rw [box3_idft]
    refine hF.c2r3_value n0 n1 n2 z (fun a b c => Z (a, b, c)) h0 h1 h2 hz ?_ ?_
      x0 hx0 x1 hx1 x2 hx2
    · intro k0 hk0 k1 hk1 k2 hk2
      rw [← hherm]
      refine hper _ _ ⟨?_, ?_, ?_⟩
      · exact opp_cast h0 k0 hk0
      · exact opp_cast h1 k1 hk1
      · exact opp_cast h2 k2 hk2
    · intro k0 hk0 k1 hk1 k2 hk2
      have hk2' : k2 < n2 := by omega
      exact hval (k0, k1, k2)
        (Finset.mem_filter.2 ⟨mem_box3.2 ⟨k0, k1, k2, hk0, hk1, hk2', rfl⟩, hk2⟩)

end Verif
