import Verif.Spec.Transformation
import Verif.Lemmas.Geometry

/-!
# Transformations do what the calls say, one after the other
-/

namespace Verif.Geo

/-- One more matrix moves the points that the old ones gave. -/
theorem transform_add (c : Change) (t : Mat4) (h0 : t 3 0 = 0) (h1 : t 3 1 = 0) (h2 : t 3 2 = 0) (h3 : t 3 3 = 1) (p : Pt) :
    (c.deform.add t).transform p = c.move (t.transform p) := by
  cases c <;>
    (unfold Mat4.transform Mat4.add Change.deform Change.move Mat4.put Mat4.identity
     simp only [h0, h1, h2, h3]
     ext <;> simp <;> ring)

/-- The last row stays as it is. -/
theorem add_last (c : Change) (t : Mat4) (h0 : t 3 0 = 0) (h1 : t 3 1 = 0) (h2 : t 3 2 = 0) (h3 : t 3 3 = 1) :
    (c.deform.add t) 3 0 = 0 ∧ (c.deform.add t) 3 1 = 0 ∧ (c.deform.add t) 3 2 = 0 ∧ (c.deform.add t) 3 3 = 1 := by
  cases c <;>
    (unfold Mat4.add Change.deform Mat4.put Mat4.identity
     simp [h0, h1, h2, h3])

theorem transform_foldl (p : Pt) (cs : List Change) (t : Mat4) (h0 : t 3 0 = 0) (h1 : t 3 1 = 0) (h2 : t 3 2 = 0) (h3 : t 3 3 = 1) :
    (cs.foldl (fun t c => c.deform.add t) t).transform p = cs.foldl (fun q c => c.move q) (t.transform p) := by
  induction cs generalizing t with
  | nil => rfl
  | cons c cs ih =>
    obtain ⟨g0, g1, g2, g3⟩ := add_last c t h0 h1 h2 h3
    rw [List.foldl_cons, List.foldl_cons, ih _ g0 g1 g2 g3, transform_add c t h0 h1 h2 h3]

/-- After any calls, a transformation moves a point as the calls say, in the order of the calls. -/
theorem transformation_spec (cs : List Change) (p : Pt) : (transformation cs).transform p = cs.foldl (fun q c => c.move q) p := by
  have : Mat4.identity.transform p = p := by
    unfold Mat4.transform Mat4.identity
    ext <;> simp
  unfold transformation
  rw [transform_foldl p cs _ (by simp [Mat4.identity]) (by simp [Mat4.identity]) (by simp [Mat4.identity]) (by simp [Mat4.identity]), this]

theorem move_rigid {c : Change} (h : c.Rigid) (p q : Pt) : euclid (c.move p) (c.move q) = euclid p q := by
  unfold euclid
  congr 1
  cases c with
  | translateX d => simp only [Change.move]; ring
  | translateY d => simp only [Change.move]; ring
  | translateZ d => simp only [Change.move]; ring
  | stretchX f => rcases h with h | h <;> subst h <;> simp only [Change.move] <;> ring
  | stretchY f => rcases h with h | h <;> subst h <;> simp only [Change.move] <;> ring
  | stretchZ f => rcases h with h | h <;> subst h <;> simp only [Change.move] <;> ring
  | rotateX a =>
    have := Real.sin_sq_add_cos_sq a
    simp only [Change.move]
    linear_combination ((p.y - q.y) ^ 2 + (p.z - q.z) ^ 2) * this
  | rotateY a =>
    have := Real.sin_sq_add_cos_sq a
    simp only [Change.move]
    linear_combination ((p.x - q.x) ^ 2 + (p.z - q.z) ^ 2) * this
  | rotateZ a =>
    have := Real.sin_sq_add_cos_sq a
    simp only [Change.move]
    linear_combination ((p.x - q.x) ^ 2 + (p.y - q.y) ^ 2) * this
  | shearXY s t => obtain ⟨rfl, rfl⟩ := h; simp only [Change.move]; ring
  | shearXZ s t => obtain ⟨rfl, rfl⟩ := h; simp only [Change.move]; ring
  | shearYZ s t => obtain ⟨rfl, rfl⟩ := h; simp only [Change.move]; ring
  | mirrorXY => simp only [Change.move]; ring
  | mirrorXZ => simp only [Change.move]; ring
  | mirrorYZ => simp only [Change.move]; ring

/-- Translations, rotations and mirrors, in any number and order, keep all distances. -/
theorem transformation_rigid (cs : List Change) (h : ∀ c ∈ cs, c.Rigid) (p q : Pt) :
    euclid ((transformation cs).transform p) ((transformation cs).transform q) = euclid p q := by
  rw [transformation_spec, transformation_spec]
  induction cs generalizing p q with
  | nil => rfl
  | cons c cs ih =>
    rw [List.foldl_cons, List.foldl_cons, ih (fun d hd => h d (List.mem_cons_of_mem _ hd)), move_rigid (h c List.mem_cons_self)]

theorem move_back {c : Change} (h : c.Regular) (p : Pt) : c.back.move (c.move p) = p := by
  cases c with
  | stretchX f => simp only [Change.back, Change.move]; ext <;> simp only; field_simp [show f ≠ 0 from h]
  | stretchY f => simp only [Change.back, Change.move]; ext <;> simp only; field_simp [show f ≠ 0 from h]
  | stretchZ f => simp only [Change.back, Change.move]; ext <;> simp only; field_simp [show f ≠ 0 from h]
  | rotateX a =>
    have := Real.sin_sq_add_cos_sq a
    simp only [Change.back, Change.move, Real.cos_neg, Real.sin_neg]
    ext
    · rfl
    · linear_combination p.y * this
    · linear_combination p.z * this
  | rotateY a =>
    have := Real.sin_sq_add_cos_sq a
    simp only [Change.back, Change.move, Real.cos_neg, Real.sin_neg]
    ext
    · linear_combination p.x * this
    · rfl
    · linear_combination p.z * this
  | rotateZ a =>
    have := Real.sin_sq_add_cos_sq a
    simp only [Change.back, Change.move, Real.cos_neg, Real.sin_neg]
    ext
    · linear_combination p.x * this
    · linear_combination p.y * this
    · rfl
  | _ => simp only [Change.back, Change.move]; ext <;> simp only <;> ring

/-- The opposite calls in the opposite order take a transformation back. -/
theorem transformation_back (cs : List Change) (h : ∀ c ∈ cs, c.Regular) (p : Pt) :
    (transformation (cs ++ (cs.map Change.back).reverse)).transform p = p := by
  rw [transformation_spec]
  induction cs generalizing p with
  | nil => rfl
  | cons c cs ih =>
    have := ih (fun d hd => h d (List.mem_cons_of_mem _ hd)) (c.move p)
    rw [List.map_cons, List.reverse_cons, List.cons_append, List.foldl_cons, ← List.append_assoc, List.foldl_append, this, List.foldl_cons, List.foldl_nil,
      move_back (h c List.mem_cons_self)]

/-- Rotation comes before translation here: (1, 0, 0) is turned to (0, 1, 0) and then moved to (2, 1, 0). In the other order it would end
in (0, 3, 0). -/
theorem concrete_transformation :
    (transformation [.rotateZ (Real.pi / 2), .translateX 2]).transform ⟨1, 0, 0⟩ = ⟨2, 1, 0⟩ ∧
    (transformation [.translateX 2, .rotateZ (Real.pi / 2)]).transform ⟨1, 0, 0⟩ = ⟨0, 3, 0⟩ ∧
    (∀ c ∈ [Change.rotateZ (Real.pi / 2), .translateX 2], c.Rigid ∧ c.Regular) := by
  refine ⟨?_, ?_, ?_⟩
  · rw [transformation_spec]
    simp [Change.move]
  · rw [transformation_spec]
    simp [Change.move]
    norm_num
  · intro c hc
    rcases List.mem_cons.1 hc with h | h
    · subst h; exact ⟨trivial, trivial⟩
    · rw [List.mem_singleton] at h
      subst h; exact ⟨trivial, trivial⟩

end Verif.Geo
