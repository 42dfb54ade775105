import Verif.Lemmas.Outcome
import Verif.Model.Field

/-! Helper lemmas: the sizes of grids that the simulation returns. -/

namespace Verif

theorem forRange_keeps {σ : Type} (I : σ → Prop) {lo hi : ℕ} {body : ℕ → σ → Res σ} {s s' : σ}
    (h0 : I s) (hstep : ∀ i s s', lo ≤ i → i < hi → I s → body i s = .ok s' → I s')
    (h : forRange lo hi body s = .ok s') : I s' := by
  obtain ⟨n, hn⟩ : ∃ n, n = hi - lo := ⟨_, rfl⟩
  induction n generalizing lo s with
  | zero =>
    rw [forRange_empty (by omega), Res.ok.injEq] at h
    exact h ▸ h0
  | succ n ih =>
    rw [forRange_succ (by omega)] at h
    obtain ⟨s1, h1, h2⟩ := Res.bind_eq_ok.1 h
    exact ih (hstep lo s s1 le_rfl (by omega) h0 h1) (fun i s s' a b => hstep i s s' (by omega) b) h2
      (by omega)

theorem wr_length {α : Type} {a a' : List α} {i : ℕ} {x : α} (h : wr a i x = .ok a') :
    a'.length = a.length := by
  unfold wr at h
  split_ifs at h
  · simp only [Res.ok.injEq] at h
    rw [← h, List.length_set]

theorem Grid2D.set_shape {α : Type} {g g' : Grid2D α} {i j : ℕ} {x : α} (h : g.set i j x = .ok g') :
    g'.ni = g.ni ∧ g'.nj = g.nj ∧ g'.data.length = g.data.length := by
  unfold Grid2D.set at h
  obtain ⟨k, -, h⟩ := Res.bind_eq_ok.1 h
  obtain ⟨d, hd, h⟩ := Res.bind_eq_ok.1 h
  simp only [Res.ok.injEq] at h
  rw [← h]
  exact ⟨rfl, rfl, wr_length hd⟩

theorem Grid3D.set_shape {α : Type} {g g' : Grid3D α} {i j k : ℕ} {x : α}
    (h : g.set i j k x = .ok g') :
    g'.ni = g.ni ∧ g'.nj = g.nj ∧ g'.nk = g.nk ∧ g'.data.length = g.data.length := by
  unfold Grid3D.set at h
  obtain ⟨k, -, h⟩ := Res.bind_eq_ok.1 h
  obtain ⟨d, hd, h⟩ := Res.bind_eq_ok.1 h
  simp only [Res.ok.injEq] at h
  rw [← h]
  exact ⟨rfl, rfl, rfl, wr_length hd⟩

theorem FFTGrid2D.getRealGrid_length {f : FFTGrid2D} {g : Grid2D ℝ} (h : f.getRealGrid = .ok g) :
    g.data.length = f.ni * f.nj := by
  unfold FFTGrid2D.getRealGrid at h
  refine forRange_keeps (fun g : Grid2D ℝ => g.data.length = f.ni * f.nj)
    (by simp [Grid2D.mk']) (fun i s s' _ _ hs h => ?_) h
  refine forRange_keeps (fun g : Grid2D ℝ => g.data.length = f.ni * f.nj) hs
    (fun i s s' _ _ hs h => ?_) h
  rw [Res.monad_bind_eq] at h
  obtain ⟨x, -, h⟩ := Res.bind_eq_ok.1 h
  rw [(Grid2D.set_shape h).2.2, hs]

theorem FFTGrid3D.getRealGrid_length {f : FFTGrid3D} {g : Grid3D ℝ} (h : f.getRealGrid = .ok g) :
    g.data.length = f.ni * f.nj * f.nk := by
  unfold FFTGrid3D.getRealGrid at h
  refine forRange_keeps (fun g : Grid3D ℝ => g.data.length = f.ni * f.nj * f.nk)
    (by simp [Grid3D.mk']) (fun i s s' _ _ hs h => ?_) h
  refine forRange_keeps (fun g : Grid3D ℝ => g.data.length = f.ni * f.nj * f.nk) hs
    (fun i s s' _ _ hs h => ?_) h
  refine forRange_keeps (fun g : Grid3D ℝ => g.data.length = f.ni * f.nj * f.nk) hs
    (fun i s s' _ _ hs h => ?_) h
  rw [Res.monad_bind_eq] at h
  obtain ⟨x, -, h⟩ := Res.bind_eq_ok.1 h
  rw [(Grid3D.set_shape h).2.2.2, hs]

theorem FFTGrid2D.init_shape {f f' : FFTGrid2D} {g : Grid2D ℝ} (h : f.init g = .ok f') :
    f'.ni = f.ni ∧ f'.nj = f.nj := by
  unfold FFTGrid2D.init at h
  split_ifs at h
  rw [Res.monad_bind_eq] at h
  obtain ⟨s, -, h⟩ := Res.bind_eq_ok.1 h
  simp only [Res.ok.injEq] at h
  rw [← h]; exact ⟨rfl, rfl⟩

theorem FFTGrid3D.init_shape {f f' : FFTGrid3D} {g : Grid3D ℝ} (h : f.init g = .ok f') :
    f'.ni = f.ni ∧ f'.nj = f.nj ∧ f'.nk = f.nk := by
  unfold FFTGrid3D.init at h
  split_ifs at h
  rw [Res.monad_bind_eq] at h
  obtain ⟨s, -, h⟩ := Res.bind_eq_ok.1 h
  simp only [Res.ok.injEq] at h
  rw [← h]; exact ⟨rfl, rfl, rfl⟩

theorem FFTGrid2D.doFFT_shape {F : Fftw} {f f' : FFTGrid2D} (h : f.doFFT F = .ok f') :
    f'.ni = f.ni ∧ f'.nj = f.nj := by
  unfold FFTGrid2D.doFFT at h
  simp only [Res.monad_bind_eq] at h
  obtain ⟨_, -, h⟩ := Res.bind_eq_ok.1 h
  obtain ⟨_, -, h⟩ := Res.bind_eq_ok.1 h
  obtain ⟨_, -, h⟩ := Res.bind_eq_ok.1 h
  simp only [Res.ok.injEq] at h
  rw [← h]; exact ⟨rfl, rfl⟩

theorem FFTGrid3D.doFFT_shape {F : Fftw} {f f' : FFTGrid3D} (h : f.doFFT F = .ok f') :
    f'.ni = f.ni ∧ f'.nj = f.nj ∧ f'.nk = f.nk := by
  unfold FFTGrid3D.doFFT at h
  simp only [Res.monad_bind_eq] at h
  obtain ⟨_, -, h⟩ := Res.bind_eq_ok.1 h
  obtain ⟨_, -, h⟩ := Res.bind_eq_ok.1 h
  obtain ⟨_, -, h⟩ := Res.bind_eq_ok.1 h
  obtain ⟨_, -, h⟩ := Res.bind_eq_ok.1 h
  simp only [Res.ok.injEq] at h
  rw [← h]; exact ⟨rfl, rfl, rfl⟩

theorem FFTGrid2D.doInverseFFT_shape {F : Fftw} {f f' : FFTGrid2D} (h : f.doInverseFFT F = .ok f') :
    f'.ni = f.ni ∧ f'.nj = f.nj := by
  unfold FFTGrid2D.doInverseFFT at h
  simp only [Res.monad_bind_eq] at h
  obtain ⟨_, -, h⟩ := Res.bind_eq_ok.1 h
  obtain ⟨_, -, h⟩ := Res.bind_eq_ok.1 h
  obtain ⟨_, -, h⟩ := Res.bind_eq_ok.1 h
  simp only [Res.ok.injEq] at h
  rw [← h]; exact ⟨rfl, rfl⟩

theorem FFTGrid3D.doInverseFFT_shape {F : Fftw} {f f' : FFTGrid3D} (h : f.doInverseFFT F = .ok f') :
    f'.ni = f.ni ∧ f'.nj = f.nj ∧ f'.nk = f.nk := by
  unfold FFTGrid3D.doInverseFFT at h
  simp only [Res.monad_bind_eq] at h
  obtain ⟨_, -, h⟩ := Res.bind_eq_ok.1 h
  obtain ⟨_, -, h⟩ := Res.bind_eq_ok.1 h
  obtain ⟨_, -, h⟩ := Res.bind_eq_ok.1 h
  obtain ⟨_, -, h⟩ := Res.bind_eq_ok.1 h
  simp only [Res.ok.injEq] at h
  rw [← h]; exact ⟨rfl, rfl, rfl⟩

theorem simulate1D_length {σ γ : Type} {F : Fftw} {p : Platform} {newRg : γ → Res (σ × γ)}
    {norm : σ → Res (ℝ × σ)} {v : Variogram} {nx : ℕ} {dx : ℝ} {m : ℕ} {rg : Option σ} {px : ℤ}
    {sx : ℝ} {g : γ} {r : List ℝ × σ × γ}
    (h : simulate1D F p newRg norm v nx dx m rg px sx g = .ok r) : r.1.length = m := by
  unfold simulate1D at h
  simp only [Res.monad_bind_eq] at h
  obtain ⟨_, -, h⟩ := Res.bind_eq_ok.1 h
  obtain ⟨_, -, h⟩ := Res.bind_eq_ok.1 h
  obtain ⟨_, -, h⟩ := Res.bind_eq_ok.1 h
  obtain ⟨_, -, h⟩ := Res.bind_eq_ok.1 h
  obtain ⟨_, -, h⟩ := Res.bind_eq_ok.1 h
  obtain ⟨_, -, h⟩ := Res.bind_eq_ok.1 h
  obtain ⟨_, -, h⟩ := Res.bind_eq_ok.1 h
  obtain ⟨_, -, h⟩ := Res.bind_eq_ok.1 h
  obtain ⟨_, -, h⟩ := Res.bind_eq_ok.1 h
  obtain ⟨_, -, h⟩ := Res.bind_eq_ok.1 h
  obtain ⟨_, -, h⟩ := Res.bind_eq_ok.1 h
  obtain ⟨out, ho, h⟩ := Res.bind_eq_ok.1 h
  simp only [Res.ok.injEq] at h
  rw [← h]
  refine forRange_keeps (fun l : List ℝ => l.length = m) (by simp) (fun i s s' _ _ hs h => ?_) ho
  obtain ⟨_, -, h⟩ := Res.bind_eq_ok.1 h
  rw [wr_length h, hs]

theorem simulate2D_length {σ γ : Type} {F : Fftw} {p : Platform} {newRg : γ → Res (σ × γ)}
    {norm : σ → Res (ℝ × σ)} {v : Variogram} {nx : ℕ} {dx : ℝ} {ny : ℕ} {dy : ℝ} {K : ℤ}
    {rg : Option σ} {px py : ℤ} {sx sy : ℝ} {g : γ} {r : List (Grid2D ℝ) × σ × γ}
    (h : simulate2D F p newRg norm v nx dx ny dy K [] rg px py sx sy g = .ok r) :
    ∀ q ∈ r.1, q.data.length = nx * ny := by
  unfold simulate2D at h
  simp only [Res.monad_bind_eq] at h
  obtain ⟨_, -, h⟩ := Res.bind_eq_ok.1 h
  obtain ⟨_, -, h⟩ := Res.bind_eq_ok.1 h
  obtain ⟨_, -, h⟩ := Res.bind_eq_ok.1 h
  obtain ⟨f, hf, h⟩ := Res.bind_eq_ok.1 h
  obtain ⟨_, -, h⟩ := Res.bind_eq_ok.1 h
  obtain ⟨_, -, h⟩ := Res.bind_eq_ok.1 h
  obtain ⟨st, hst, h⟩ := Res.bind_eq_ok.1 h
  simp only [Res.ok.injEq] at h
  rw [← h]
  unfold FFTGrid2D.create at hf
  simp only [Res.monad_bind_eq] at hf
  obtain ⟨_, -, hf⟩ := Res.bind_eq_ok.1 hf
  obtain ⟨_, -, hf⟩ := Res.bind_eq_ok.1 hf
  simp only [Res.ok.injEq] at hf
  refine (forRange_keeps (fun st : FFTGrid2D × Grid2D ℝ × σ × List (Grid2D ℝ) =>
    st.1.ni = nx ∧ st.1.nj = ny ∧ ∀ q ∈ st.2.2.2, q.data.length = nx * ny)
    ⟨by rw [← hf], by rw [← hf], by simp⟩ (fun i s s' _ _ hs h => ?_) hst).2.2
  unfold fieldStep2 at h
  simp only [Res.monad_bind_eq] at h
  obtain ⟨_, -, h⟩ := Res.bind_eq_ok.1 h
  obtain ⟨f1, h1, h⟩ := Res.bind_eq_ok.1 h
  obtain ⟨f2, h2, h⟩ := Res.bind_eq_ok.1 h
  obtain ⟨_, -, h⟩ := Res.bind_eq_ok.1 h
  obtain ⟨f3, h3, h⟩ := Res.bind_eq_ok.1 h
  obtain ⟨q, h4, h⟩ := Res.bind_eq_ok.1 h
  simp only [Res.ok.injEq] at h
  have a1 := FFTGrid2D.init_shape h1
  have a2 := FFTGrid2D.doFFT_shape h2
  have a3 := FFTGrid2D.doInverseFFT_shape h3
  have a4 := FFTGrid2D.getRealGrid_length h4
  simp only at a3
  rw [← h]
  refine ⟨by rw [a3.1, a2.1, a1.1, hs.1], by rw [a3.2, a2.2, a1.2, hs.2.1], fun c hc => ?_⟩
  rcases List.mem_append.1 hc with hc | hc
  · exact hs.2.2 c hc
  · rw [List.mem_singleton] at hc
    rw [hc, a4, a3.1, a2.1, a1.1, hs.1, a3.2, a2.2, a1.2, hs.2.1]

theorem simulate3D_length {γ : Type} {F : Fftw} {p : Platform}
    {norm : γ → Res (ℝ × γ)} {v : Variogram} {nx : ℕ} {dx : ℝ} {ny : ℕ} {dy : ℝ} {nz : ℕ} {dz : ℝ}
    {K : ℤ} {px py pz : ℤ} {sx sy sz : ℝ} {g : γ} {r : List (Grid3D ℝ) × γ}
    (h : simulate3D F p norm v nx dx ny dy nz dz K [] px py pz sx sy sz g = .ok r) :
    ∀ q ∈ r.1, q.data.length = nx * ny * nz := by
  unfold simulate3D at h
  simp only [Res.monad_bind_eq] at h
  obtain ⟨_, -, h⟩ := Res.bind_eq_ok.1 h
  obtain ⟨_, -, h⟩ := Res.bind_eq_ok.1 h
  obtain ⟨_, -, h⟩ := Res.bind_eq_ok.1 h
  obtain ⟨_, -, h⟩ := Res.bind_eq_ok.1 h
  obtain ⟨f, hf, h⟩ := Res.bind_eq_ok.1 h
  obtain ⟨_, -, h⟩ := Res.bind_eq_ok.1 h
  obtain ⟨st, hst, h⟩ := Res.bind_eq_ok.1 h
  simp only [Res.ok.injEq] at h
  rw [← h]
  unfold FFTGrid3D.create at hf
  simp only [Res.monad_bind_eq] at hf
  obtain ⟨_, -, hf⟩ := Res.bind_eq_ok.1 hf
  obtain ⟨_, -, hf⟩ := Res.bind_eq_ok.1 hf
  obtain ⟨_, -, hf⟩ := Res.bind_eq_ok.1 hf
  simp only [Res.ok.injEq] at hf
  refine (forRange_keeps (fun st : FFTGrid3D × Grid3D ℝ × γ × List (Grid3D ℝ) =>
    st.1.ni = nx ∧ st.1.nj = ny ∧ st.1.nk = nz ∧ ∀ q ∈ st.2.2.2, q.data.length = nx * ny * nz)
    ⟨by rw [← hf], by rw [← hf], by rw [← hf], by simp⟩ (fun i s s' _ _ hs h => ?_) hst).2.2.2
  unfold fieldStep3 at h
  simp only [Res.monad_bind_eq] at h
  obtain ⟨_, -, h⟩ := Res.bind_eq_ok.1 h
  obtain ⟨f1, h1, h⟩ := Res.bind_eq_ok.1 h
  obtain ⟨f2, h2, h⟩ := Res.bind_eq_ok.1 h
  obtain ⟨_, -, h⟩ := Res.bind_eq_ok.1 h
  obtain ⟨f3, h3, h⟩ := Res.bind_eq_ok.1 h
  obtain ⟨q, h4, h⟩ := Res.bind_eq_ok.1 h
  simp only [Res.ok.injEq] at h
  have a1 := FFTGrid3D.init_shape h1
  have a2 := FFTGrid3D.doFFT_shape h2
  have a3 := FFTGrid3D.doInverseFFT_shape h3
  have a4 := FFTGrid3D.getRealGrid_length h4
  simp only at a3
  rw [← h]
  refine ⟨by rw [a3.1, a2.1, a1.1, hs.1], by rw [a3.2.1, a2.2.1, a1.2.1, hs.2.1],
    by rw [a3.2.2, a2.2.2, a1.2.2, hs.2.2.1], fun c hc => ?_⟩
  rcases List.mem_append.1 hc with hc | hc
  · exact hs.2.2.2 c hc
  · rw [List.mem_singleton] at hc
    rw [hc, a4, a3.1, a2.1, a1.1, hs.1, a3.2.1, a2.2.1, a1.2.1, hs.2.1, a3.2.2, a2.2.2, a1.2.2,
      hs.2.2.1]

end Verif
