import Verif.Spec.ThreadsSim
import Verif.Lemmas.Threads
import Verif.Lemmas.Sim
import Verif.Lemmas.Loop
import Verif.Lemmas.DsfmtDraw
import Verif.Lemmas.Api
import Verif.Props.ApiField

/-! Helper lemmas: a simulation as a function of the words it draws. -/

namespace Verif

open Spec.Mt Dsfmt

variable {α β γ α' β' : Type}

/-! ## Runs on a list and runs on a sequence

`x` is a run on the words up to `N`, `y` a run on all words, which tells in its result (by `pos`) where
it stopped. -/

/-- If `y` returns having stopped at `N` or before, then `x` returns the same; if `x` returns then so
does `y`, having stopped at `N` or before. `cut` makes the result of `x` from that of `y`. -/
structure Cut (N : ℕ) (pos : β → ℕ) (cut : β → α) (p : ℕ) (x : Res α) (y : Res β) : Prop where
  up : ∀ b, y = .ok b → p ≤ pos b
  down : ∀ b, y = .ok b → pos b ≤ N → x = .ok (cut b)
  back : p ≤ N → ∀ a, x = .ok a → ∃ b, y = .ok b ∧ pos b ≤ N ∧ a = cut b

namespace Cut

variable {N p : ℕ} {pos : β → ℕ} {cut : β → α} {pos' : β' → ℕ} {cut' : β' → α'}

theorem bind {x : Res α} {y : Res β} {f : α → Res α'} {g : β → Res β'} (h : Cut N pos cut p x y)
    (hf : ∀ b, Cut N pos' cut' (pos b) (f (cut b)) (g b)) :
    Cut N pos' cut' p (x.bind f) (y.bind g) where
  up c hc := by
    obtain ⟨b, e1, e2⟩ := Res.bind_eq_ok.1 hc
    exact (h.up b e1).trans ((hf b).up c e2)
  down c hc hN := by
    obtain ⟨b, e1, e2⟩ := Res.bind_eq_ok.1 hc
    rw [h.down b e1 (((hf b).up c e2).trans hN), Res.bind_ok]
    exact (hf b).down c e2 hN
  back hp c hc := by
    obtain ⟨a, e1, e2⟩ := Res.bind_eq_ok.1 hc
    obtain ⟨b, e3, hb, rfl⟩ := h.back hp a e1
    obtain ⟨d, e4, h4, h5⟩ := (hf b).back hb c e2
    exact ⟨d, by rw [e3, Res.bind_ok, e4], h4, h5⟩

theorem bind_same {δ : Type} (z : Res δ) {f : δ → Res α} {g : δ → Res β}
    (hf : ∀ d, Cut N pos cut p (f d) (g d)) : Cut N pos cut p (z.bind f) (z.bind g) where
  up c hc := by
    obtain ⟨b, e1, e2⟩ := Res.bind_eq_ok.1 hc
    exact (hf b).up c e2
  down c hc hN := by
    obtain ⟨b, e1, e2⟩ := Res.bind_eq_ok.1 hc
    rw [e1, Res.bind_ok]
    exact (hf b).down c e2 hN
  back hp c hc := by
    obtain ⟨a, e1, e2⟩ := Res.bind_eq_ok.1 hc
    obtain ⟨d, e4, h4, h5⟩ := (hf a).back hp c e2
    exact ⟨d, by rw [e1, Res.bind_ok, e4], h4, h5⟩

theorem ok {b : β} (hp : pos b = p) {a : α} (ha : a = cut b) :
    Cut N pos cut p (.ok a) (.ok b) where
  up c hc := by rw [← Res.ok.inj hc, hp]
  down c hc _ := by rw [← Res.ok.inj hc, ha]
  back hN c hc := ⟨b, rfl, by rw [hp]; exact hN, by rw [← Res.ok.inj hc, ha]⟩

theorem fail {x : Res α} {y : Res β} (hx : ∀ a, x ≠ .ok a) (hy : ∀ b, y ≠ .ok b) :
    Cut N pos cut p x y :=
  ⟨fun b h => absurd h (hy b), fun b h => absurd h (hy b), fun _ a h => absurd h (hx a)⟩

theorem forRange {lo hi : ℕ} {f : ℕ → α → Res α} {g : ℕ → β → Res β}
    (hfg : ∀ i b, Cut N pos cut (pos b) (f i (cut b)) (g i b)) (b : β) :
    Cut N pos cut (pos b) (Verif.forRange lo hi f (cut b)) (Verif.forRange lo hi g b) := by
  unfold Verif.forRange
  generalize hi - lo = n
  induction n generalizing lo b with
  | zero => apply Cut.ok <;> rfl
  | succ n ih => exact (hfg lo b).bind fun b => ih b

theorem untilFuel {δ σ τ : Type} {cs : σ → τ} {ps : σ → ℕ} {f : τ → Res (Option δ × τ)}
    {g : σ → Res (Option δ × σ)}
    (hfg : ∀ s, Cut N (fun r : Option δ × σ => ps r.2) (fun r => (r.1, cs r.2)) (ps s) (f (cs s)) (g s))
    (n : ℕ) (s : σ) :
    Cut N (fun r : δ × σ => ps r.2) (fun r => (r.1, cs r.2)) (ps s) (Verif.untilFuel f n (cs s))
      (Verif.untilFuel g n s) := by
  induction n generalizing s with
  | zero => exact .fail (fun a h => by simp [Verif.untilFuel] at h) fun a h => by simp [Verif.untilFuel] at h
  | succ n ih =>
    unfold Verif.untilFuel
    refine (hfg s).bind fun r => ?_
    obtain ⟨o, s⟩ := r
    cases o with
    | some a => apply Cut.ok <;> rfl
    | none => exact ih s

theorem untilLoop {δ σ τ : Type} {cs : σ → τ} {ps : σ → ℕ} {f : τ → Res (Option δ × τ)}
    {g : σ → Res (Option δ × σ)}
    (hfg : ∀ s, Cut N (fun r : Option δ × σ => ps r.2) (fun r => (r.1, cs r.2)) (ps s) (f (cs s)) (g s))
    (s : σ) :
    Cut N (fun r : δ × σ => ps r.2) (fun r => (r.1, cs r.2)) (ps s) (Verif.untilLoop f (cs s))
      (Verif.untilLoop g s) := by
  have key : ∀ {α τ : Type} {f : τ → Res (Option α × τ)} {t : τ} {a : α × τ},
      Verif.untilLoop f t = .ok a ↔ ∃ n, Verif.untilFuel f n t = .ok a := by
    intro α τ f t a
    constructor
    · intro h
      by_cases hex : ∃ n, Verif.untilFuel f n t ≠ .diverges
      · obtain ⟨n, hn⟩ := hex
        rw [untilLoop_eq hn] at h
        exact ⟨n, h⟩
      · push Not at hex
        rw [untilLoop_diverges hex] at h
        exact absurd h (by simp)
    · rintro ⟨n, hn⟩
      rw [untilLoop_eq (n := n) (by rw [hn]; simp), hn]
  refine ⟨fun b h => ?_, fun b h hN => ?_, fun hp a h => ?_⟩
  · obtain ⟨n, hn⟩ := key.1 h
    exact (untilFuel hfg n s).up b hn
  · obtain ⟨n, hn⟩ := key.1 h
    exact key.2 ⟨n, (untilFuel hfg n s).down b hn hN⟩
  · obtain ⟨n, hn⟩ := key.1 h
    obtain ⟨b, h1, h2, h3⟩ := (untilFuel hfg n s).back hp a hn
    exact ⟨b, key.2 ⟨n, h1⟩, h2, h3⟩

end Cut

/-! ## Normal numbers -/

/-- Words of a sequence, from position `p` on. -/
def seqWord {δ : Type} (X : ℕ → W128) (f : BitVec 64 → Res δ) (p : ℕ) : Res (δ × ℕ) :=
  (f (word X p)).bind fun x => .ok (x, p + 1)

/-- The words up to position `N` that are left at position `p`. -/
def left (X : ℕ → W128) (N p : ℕ) : List (BitVec 64) := section_ X p (N - p)

/-- A computation that returns a value and a new position. -/
abbrev CutAt {δ : Type} (X : ℕ → W128) (N p : ℕ) (x : Res (δ × List (BitVec 64))) (y : Res (δ × ℕ)) :
    Prop := Cut N (fun r : δ × ℕ => r.2) (fun r => (r.1, left X N r.2)) p x y

theorem takeWord_cut {δ : Type} (X : ℕ → W128) (f : BitVec 64 → Res δ) (N p : ℕ) :
    CutAt X N p (takeWord f (left X N p)) (seqWord X f p) := by
  unfold seqWord left
  rcases Nat.lt_or_ge p N with h | h
  · obtain ⟨n, rfl⟩ := Nat.exists_eq_add_of_lt h
    rw [show p + n + 1 - p = n + 1 by omega, Threads.section_succ]
    simp only [takeWord]
    refine ⟨fun b hb => ?_, fun b hb _ => ?_, fun _ a ha => ?_⟩
    · obtain ⟨x, -, e⟩ := Res.bind_eq_ok.1 hb
      rw [← Res.ok.inj e]; exact Nat.le_succ p
    · obtain ⟨x, e1, e⟩ := Res.bind_eq_ok.1 hb
      rw [← Res.ok.inj e, e1, Res.bind_ok]
      simp only [left]
      rw [show p + n + 1 - (p + 1) = n by omega]
    · obtain ⟨x, e1, e⟩ := Res.bind_eq_ok.1 ha
      refine ⟨(x, p + 1), by rw [e1, Res.bind_ok], by show p + 1 ≤ _; omega, ?_⟩
      rw [← Res.ok.inj e]
      simp only [left]
      rw [show p + n + 1 - (p + 1) = n by omega]
  · rw [show N - p = 0 by omega]
    refine ⟨fun b hb => ?_, fun b hb hN => ?_, fun _ a ha => ?_⟩
    · obtain ⟨x, -, e⟩ := Res.bind_eq_ok.1 hb
      rw [← Res.ok.inj e]; exact Nat.le_succ p
    · obtain ⟨x, -, e⟩ := Res.bind_eq_ok.1 hb
      rw [← Res.ok.inj e] at hN
      have : p + 1 ≤ N := hN
      omega
    · exact absurd ha (by simp [section_, takeWord])

theorem norm01With_cut (X : ℕ → W128) (f : BitVec 64 → Res ℝ) (N p : ℕ) :
    CutAt X N p (Random.norm01With (takeWord f) (left X N p)) (Random.norm01With (seqWord X f) p) := by
  have hu : ∀ p, CutAt X N p (takeWord f (left X N p)) (seqWord X f p) := takeWord_cut X f N
  have hd : ∀ p, Cut N (fun r : Option (ℝ × ℝ × ℝ) × ℕ => r.2) (fun r => (r.1, left X N r.2)) p
      (Random.discRound (takeWord f) (left X N p)) (Random.discRound (seqWord X f) p) := by
    intro p
    unfold Random.discRound
    simp only [Res.monad_bind_eq]
    exact (hu p).bind fun r => (hu r.2).bind fun r => by apply Cut.ok <;> rfl
  unfold Random.norm01With
  simp only [Res.monad_bind_eq]
  refine (hu p).bind fun r => ?_
  dsimp only
  split_ifs
  · exact (hu r.2).bind fun r => (hu r.2).bind fun r => (hu r.2).bind fun r => by apply Cut.ok <;> rfl
  · exact (hu r.2).bind fun r => (hu r.2).bind fun r => by apply Cut.ok <;> rfl
  · refine Cut.untilLoop (ps := id) (cs := left X N) (fun p => ?_) r.2
    unfold Random.wedgeRound
    simp only [Res.monad_bind_eq]
    exact (hu p).bind fun r => (hu r.2).bind fun r => by apply Cut.ok <;> rfl
  · refine Cut.untilLoop (ps := id) (cs := left X N) (fun p => ?_) r.2
    unfold Random.tailRound
    simp only [Res.monad_bind_eq]
    refine (Cut.untilLoop (ps := id) (cs := left X N) hd p).bind fun r => ?_
    obtain ⟨⟨v1, v2, w⟩, q⟩ := r
    dsimp only
    split_ifs
    · exact .fail (fun a h => by simp at h) fun a h => by simp at h
    all_goals apply Cut.ok <;> rfl

/-! ## Fields -/

section
variable {σ γ τ : Type} {N : ℕ} {X : ℕ → W128}

theorem drawNoise3_cut {norm : ℕ → Res (ℝ × ℕ)} {norm' : List (BitVec 64) → Res (ℝ × List (BitVec 64))}
    (hnorm : ∀ p, CutAt X N p (norm' (left X N p)) (norm p)) (nx ny nz : ℕ) (g : Grid3D ℝ) (p : ℕ) :
    CutAt X N p (drawNoise3 norm' nx ny nz g (left X N p)) (drawNoise3 norm nx ny nz g p) := by
  unfold drawNoise3
  refine Cut.forRange (pos := fun r : Grid3D ℝ × ℕ => r.2) (cut := fun r => (r.1, left X N r.2))
    (fun i b => Cut.forRange (fun j b => Cut.forRange (fun k b => ?_) b) b) (g, p)
  simp only [Res.monad_bind_eq]
  exact (hnorm b.2).bind fun r => Cut.bind_same _ fun l => by apply Cut.ok <;> rfl

theorem fieldStep3_cut {norm : ℕ → Res (ℝ × ℕ)} {norm' : List (BitVec 64) → Res (ℝ × List (BitVec 64))}
    (hnorm : ∀ p, CutAt X N p (norm' (left X N p)) (norm p)) (F : Fftw) (filter : FFTGrid3D)
    (tx ty tz : ℕ) (b : FFTGrid3D × Grid3D ℝ × ℕ × List (Grid3D ℝ)) :
    Cut N (fun b : FFTGrid3D × Grid3D ℝ × ℕ × List (Grid3D ℝ) => b.2.2.1)
      (fun b => (b.1, b.2.1, left X N b.2.2.1, b.2.2.2)) b.2.2.1
      (fieldStep3 F norm' filter tx ty tz (b.1, b.2.1, left X N b.2.2.1, b.2.2.2))
      (fieldStep3 F norm filter tx ty tz b) := by
  unfold fieldStep3
  simp only [Res.monad_bind_eq]
  refine (drawNoise3_cut hnorm tx ty tz b.2.1 b.2.2.1).bind fun r => ?_
  exact Cut.bind_same _ fun _ => Cut.bind_same _ fun _ => Cut.bind_same _ fun _ =>
    Cut.bind_same _ fun _ => Cut.bind_same _ fun _ => by apply Cut.ok <;> rfl

/-- The call on the words up to `N` and on the whole sequence. -/
theorem from_cut {norm : ℕ → Res (ℝ × ℕ)} {norm' : List (BitVec 64) → Res (ℝ × List (BitVec 64))}
    (hnorm : ∀ p, CutAt X N p (norm' (left X N p)) (norm p))
    {newRg : ℕ → Res (RandomGenerator × ℕ)}
    {newRg' : List (BitVec 64) → Res (RandomGenerator × List (BitVec 64))}
    (hnew : ∀ p, CutAt X N p (newRg' (left X N p)) (newRg p)) (S : Setup) (a : SimArgs) (p : ℕ) :
    CutAt X N p (a.from S newRg' norm' (left X N p)) (a.from S newRg norm p) := by
  unfold SimArgs.from
  split_ifs
  · unfold simulate1D rgOrNew
    simp only [Res.monad_bind_eq, Res.bind_assoc, Res.bind_ok]
    refine Cut.bind_same _ fun _ => Cut.bind_same _ fun _ => Cut.bind_same _ fun n =>
      Cut.bind_same _ fun _ => (hnew p).bind fun r => ?_
    exact Cut.bind_same _ fun _ => Cut.bind_same _ fun _ => Cut.bind_same _ fun _ =>
      Cut.bind_same _ fun _ => Cut.bind_same _ fun _ => Cut.bind_same _ fun _ =>
      Cut.bind_same _ fun _ => by apply Cut.ok <;> rfl
  · unfold simulate2D rgOrNew
    simp only [Res.monad_bind_eq, Res.bind_assoc, Res.bind_ok]
    refine Cut.bind_same _ fun _ => Cut.bind_same _ fun _ => Cut.bind_same _ fun _ =>
      Cut.bind_same _ fun _ => Cut.bind_same _ fun filter => (hnew p).bind fun r => ?_
    exact Cut.bind_same _ fun _ => Cut.bind_same _ fun _ => by apply Cut.ok <;> rfl
  · unfold simulate3D
    simp only [Res.monad_bind_eq, Res.bind_assoc, Res.bind_ok]
    refine Cut.bind_same _ fun _ => Cut.bind_same _ fun _ => Cut.bind_same _ fun _ =>
      Cut.bind_same _ fun _ => Cut.bind_same _ fun g => Cut.bind_same _ fun filter => ?_
    refine (Cut.forRange (pos := fun b : FFTGrid3D × Grid3D ℝ × ℕ × List (Grid3D ℝ) => b.2.2.1)
      (cut := fun b => (b.1, b.2.1, left X N b.2.2.1, b.2.2.2))
      (fun _ b => fieldStep3_cut hnorm S.F filter _ _ _ b) (_, _, p, _)).bind fun b => ?_
    exact Cut.bind_same _ fun _ => by apply Cut.ok <;> rfl

end

/-! ## The call and the sequence of the generator -/

section
variable {X L : ℕ → W128}

/-- The state of the global generator is at a position of its sequence, and otherwise as `s0`. -/
def AtPos (X L : ℕ → W128) (s0 s : Random) (p : ℕ) : Prop :=
  Pos X L p s.dsfmt ∧ s = { s0 with dsfmt := s.dsfmt }

theorem untilFuel_sim {δ σ τ : Type} {R : σ → τ → Prop} {f : σ → Res (Option δ × σ)}
    {g : τ → Res (Option δ × τ)}
    (hfg : ∀ s t, R s t → Sim false (fun r r' => r.1 = r'.1 ∧ R r.2 r'.2) (f s) (g t)) (n : ℕ) {s : σ}
    {t : τ} (h : R s t) :
    Sim false (fun r r' => r.1 = r'.1 ∧ R r.2 r'.2) (untilFuel f n s) (untilFuel g n t) := by
  induction n generalizing s t with
  | zero => exact .diverges
  | succ n ih =>
    unfold untilFuel
    refine (hfg s t h).bind fun r r' hr => ?_
    obtain ⟨o, s⟩ := r
    obtain ⟨o', t⟩ := r'
    obtain ⟨rfl, h2⟩ := hr
    cases o with
    | some a => exact .ok ⟨rfl, h2⟩
    | none => exact ih h2

theorem untilLoop_sim {δ σ τ : Type} {R : σ → τ → Prop} {f : σ → Res (Option δ × σ)}
    {g : τ → Res (Option δ × τ)}
    (hfg : ∀ s t, R s t → Sim false (fun r r' => r.1 = r'.1 ∧ R r.2 r'.2) (f s) (g t)) {s : σ}
    {t : τ} (h : R s t) :
    Sim false (fun r r' => r.1 = r'.1 ∧ R r.2 r'.2) (untilLoop f s) (untilLoop g t) := by
  have hd : ∀ n, untilFuel f n s = .diverges ↔ untilFuel g n t = .diverges := by
    intro n
    have := untilFuel_sim hfg n h
    generalize untilFuel f n s = x at this
    generalize untilFuel g n t = y at this
    cases this with
    | badDiverges _ hb => exact absurd hb (by decide)
    | badNonfinite _ _ hb => exact absurd hb (by decide)
    | diverges => simp
    | _ => simp
  by_cases hex : ∃ n, untilFuel f n s ≠ .diverges
  · obtain ⟨n, hn⟩ := hex
    rw [untilLoop_eq hn, untilLoop_eq (fun e => hn ((hd n).2 e))]
    exact untilFuel_sim hfg n h
  · push Not at hex
    rw [untilLoop_diverges hex, untilLoop_diverges fun n => (hd n).1 (hex n)]
    exact .diverges

theorem norm01With_sim {σ τ : Type} {R : σ → τ → Prop} {f : σ → Res (ℝ × σ)} {g : τ → Res (ℝ × τ)}
    (hu : ∀ s t, R s t → Sim false (fun r r' => r.1 = r'.1 ∧ R r.2 r'.2) (f s) (g t)) {s : σ} {t : τ}
    (h : R s t) : Sim false (fun r r' => r.1 = r'.1 ∧ R r.2 r'.2) (Random.norm01With f s)
      (Random.norm01With g t) := by
  have hd : ∀ s t, R s t → Sim false (fun r r' => r.1 = r'.1 ∧ R r.2 r'.2) (Random.discRound f s)
      (Random.discRound g t) := by
    intro s t h
    unfold Random.discRound
    simp only [Res.monad_bind_eq]
    refine (hu s t h).bind fun r r' hr => (hu _ _ hr.2).bind fun q q' hq => ?_
    rw [hr.1, hq.1]
    exact .ok ⟨rfl, hq.2⟩
  unfold Random.norm01With
  simp only [Res.monad_bind_eq]
  refine (hu s t h).bind fun r r' hr => ?_
  rw [hr.1]
  split_ifs
  · refine (hu _ _ hr.2).bind fun r r' hr => (hu _ _ hr.2).bind fun q q' hq =>
      (hu _ _ hq.2).bind fun z z' hz => ?_
    rw [hr.1, hq.1, hz.1]
    exact .ok ⟨rfl, hz.2⟩
  · refine (hu _ _ hr.2).bind fun r r' hr => (hu _ _ hr.2).bind fun q q' hq => ?_
    rw [hr.1, hq.1]
    exact .ok ⟨rfl, hq.2⟩
  · refine untilLoop_sim (fun s t h => ?_) hr.2
    unfold Random.wedgeRound
    simp only [Res.monad_bind_eq]
    refine (hu s t h).bind fun r r' hr => (hu _ _ hr.2).bind fun q q' hq => ?_
    rw [hr.1, hq.1]
    exact .ok ⟨rfl, hq.2⟩
  · refine untilLoop_sim (fun s t h => ?_) hr.2
    unfold Random.tailRound
    simp only [Res.monad_bind_eq]
    refine (untilLoop_sim hd h).bind fun r r' hr => ?_
    obtain ⟨⟨v1, v2, w⟩, q⟩ := r
    obtain ⟨⟨v1', v2', w'⟩, q'⟩ := r'
    obtain ⟨hr, hq⟩ := hr
    cases hr
    dsimp only
    by_cases hw : w = 0
    · rw [if_pos hw, if_pos hw]; exact .nonfinite _
    · rw [if_neg hw, if_neg hw]; exact .ok ⟨rfl, hq⟩

theorem from_sim {σ τ : Type} {R : σ → τ → Prop} {norm : σ → Res (ℝ × σ)} {norm' : τ → Res (ℝ × τ)}
    (hnorm : ∀ s t, R s t → Sim false (fun r r' => r.1 = r'.1 ∧ R r.2 r'.2) (norm s) (norm' t))
    {newRg : σ → Res (RandomGenerator × σ)} {newRg' : τ → Res (RandomGenerator × τ)}
    (hnew : ∀ s t, R s t → Sim false (fun r r' => r.1 = r'.1 ∧ R r.2 r'.2) (newRg s) (newRg' t))
    (S : Setup) (a : SimArgs) {s : σ} {t : τ} (h : R s t) :
    Sim false (fun r r' => r.1 = r'.1 ∧ R r.2 r'.2) (a.from S newRg norm s)
      (a.from S newRg' norm' t) := by
  have hrg : ∀ r r' : RandomGenerator, r = r' → Sim false (fun q q' => q.1 = q'.1 ∧ q.2 = q'.2)
      (RandomGenerator.norm01 S.b r) (RandomGenerator.norm01 S.b r') := by
    rintro r _ rfl
    exact Sim.refl (fun _ => ⟨rfl, rfl⟩) _
  unfold SimArgs.from
  split_ifs
  · exact (simulate1D_sim hrg hnew S.F S.p a.v a.nx a.dx a.nx a.padx a.sx h).bind
      fun r r' hr => .ok ⟨hr.1, hr.2.2⟩
  · refine (simulate2D_sim hrg hnew S.F S.p a.v a.nx a.dx a.ny a.dy 1 [] a.padx a.pady a.sx a.sy
      h).bind fun r r' hr => ?_
    rw [hr.1]
    exact Sim.bind_same _ fun f => .ok ⟨rfl, hr.2.2⟩
  · refine (simulate3D_sim hnorm S.F S.p a.v a.nx a.dx a.ny a.dy a.nz a.dz 1 [] a.padx a.pady a.padz
      a.sx a.sy a.sz h).bind fun r r' hr => ?_
    rw [hr.1]
    exact Sim.bind_same _ fun f => .ok ⟨rfl, hr.2⟩

theorem call_from (a : SimArgs) (S : Setup) (e : Env) {s : Random} (hs : s.isInitialized = true) :
    a.call S e s = a.from S (newRandomGenerator S.b e.raw) (Random.norm01 S.b) s := by
  unfold SimArgs.call SimArgs.from
  rw [advancedSimulate_seeded hs]
  unfold seededSimulate apiSimulate1D apiSimulate2D apiSimulate3D
  rfl

theorem unif01_sim (hX : DsfmtSeq X L) (b : Build) (s0 : Random) (s : Random) (p : ℕ)
    (h : AtPos X L s0 s p) :
    Sim false (fun r r' => r.1 = r'.1 ∧ AtPos X L s0 r.2 r'.2) (Random.unif01 b s)
      (seqWord X unifOfWord p) := by
  obtain ⟨⟨w, d⟩, e, h1, h2, -⟩ := nextWord_pos hX b h.1
  obtain rfl : w = word X p := h1
  unfold Random.unif01 Dsfmt.genrandCloseOpen Dsfmt.genrandClose1Open2 seqWord unifOfWord
  simp only [Res.monad_bind_eq, e, Res.bind_ok, Res.bind_assoc]
  exact Sim.bind_same _ fun x => .ok ⟨rfl, h2, by rw [h.2]⟩

theorem newRg_sim (hX : DsfmtSeq X L) (b : Build) (raw : Dsfmt) (s0 : Random) (s : Random) (p : ℕ)
    (h : AtPos X L s0 s p) :
    Sim false (fun r r' => r.1 = r'.1 ∧ AtPos X L s0 r.2 r'.2) (newRandomGenerator b raw s)
      (seqWord X (rgOfWord raw) p) := by
  obtain ⟨⟨w, d⟩, e, h1, h2, -⟩ := nextWord_pos hX b h.1
  obtain rfl : w = word X p := h1
  unfold newRandomGenerator Random.drawUint32 Dsfmt.genrandUint32 seqWord rgOfWord
  simp only [Res.monad_bind_eq, e, Res.bind_ok]
  exact Sim.bind_same _ fun x => .ok ⟨rfl, h2, by rw [h.2]⟩

/-- **The call and its words.** If a call returns with a seed in force then it takes `k` of the
generator's words: it returns the same from a list of words of the sequence if and only if the list
has at least `k` of them, and leaves the others. -/
theorem advancedSimulate_words (hX : DsfmtSeq X L) (a : SimArgs) (S : Setup) (e : Env) {s s' : Random}
    (hs : s.isInitialized = true) {p : ℕ} (hp : Pos X L p s.dsfmt) {out : List ℝ}
    (h : a.call S e s = .ok (out, s')) :
    ∃ k, Pos X L (p + k) s'.dsfmt ∧ s' = { s with dsfmt := s'.dsfmt } ∧
      (∀ n, k ≤ n → a.words S e (section_ X p n) = .ok (out, section_ X (p + k) (n - k))) ∧
      ∀ n, n < k → ∀ r, a.words S e (section_ X p n) ≠ .ok r := by
  rw [call_from a S e hs] at h
  have hsim := from_sim (R := AtPos X L s) (s := s) (t := p)
    (fun s t hst => norm01With_sim (fun s t h => unif01_sim hX S.b _ s t h) hst)
    (fun s t hst => newRg_sim hX S.b e.raw _ s t hst) S a ⟨hp, rfl⟩
  have hsim' : Sim false (fun r r' => r.1 = r'.1 ∧ AtPos X L s r.2 r'.2) (.ok (out, s'))
      (a.from S (seqWord X (rgOfWord e.raw)) (Random.norm01With (seqWord X unifOfWord)) p) := by
    rw [← h]; exact hsim
  obtain ⟨q, hq, hq2⟩ : ∃ q, a.from S (seqWord X (rgOfWord e.raw))
      (Random.norm01With (seqWord X unifOfWord)) p = .ok (out, q) ∧ AtPos X L s s' q := by
    generalize a.from S (seqWord X (rgOfWord e.raw)) (Random.norm01With (seqWord X unifOfWord)) p = y
      at hsim'
    cases hsim' with
    | @ok _ r' hr => exact ⟨r'.2, by rw [show out = r'.1 from hr.1], hr.2⟩
  have hcut : ∀ N, CutAt X N p (a.words S e (left X N p)) (.ok (out, q)) := by
    intro N
    rw [← hq]
    exact from_cut (norm01With_cut X unifOfWord N) (takeWord_cut X (rgOfWord e.raw) N) S a p
  have hpq : p ≤ q := (hcut 0).up _ rfl
  obtain ⟨k, rfl⟩ := Nat.exists_eq_add_of_le hpq
  refine ⟨k, hq2.1, hq2.2, fun n hn => ?_, fun n hn r hr => ?_⟩
  · have := (hcut (p + n)).down _ rfl (by show p + k ≤ p + n; omega)
    simp only [left] at this
    rwa [show p + n - p = n by omega, show p + n - (p + k) = n - k by omega] at this
  · have hr' : a.words S e (left X (p + n) p) = .ok r := by
      rw [left, show p + n - p = n by omega]; exact hr
    obtain ⟨b, e1, e2, -⟩ := (hcut (p + n)).back (by omega) r hr'
    rw [← Res.ok.inj e1] at e2
    have : p + k ≤ p + n := e2
    omega

end

end Verif
