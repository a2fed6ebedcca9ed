import Verif.Props.DenseRun
import Verif.Props.ControlledRunWitness

/-! # Instances of C66: the harmonic oscillator -/

namespace Verif

theorem oscillator_dense :
    IntegratesDensely 5 oscillator
      (fun x t h r => ∀ w, ∃ k' w', dopri5ErrStep (countSys oscillator) x (oscillator x t) t h w = .ok ((r.1, k'), r.2) w')
      (fun τ maxDt => denseObject (τ.controlUpTo 2 5 4 maxDt) (countSys oscillator)) fun t i => if i = 0 then Real.sin t else Real.cos t :=
  dense_dopri5_integrates oscillator_evaluates (oscillator_good 6) oscillator_solution

/-- A call to which the property applies: observations at the times `0`, `1`, `1` and `5`, step size at most `1/10`, tolerances `1e-6`; the observed
states are within `C / 10^5` of sine and cosine. -/
example : ∃ C, ∀ w l,
    (∃ x n w' l', integrateTimesDense (TimeArith.exact ℝ 0)
        (denseObject ((⟨1 / 10 ^ 6, 1 / 10 ^ 6, 1, 1⟩ : Tolerances).controlUpTo 2 5 4 (1 / 10)) (countSys oscillator))
        recordObserver ⟨fun _ => 0, fun _ => 0, fun _ => false, fun _ => 0, 0⟩ (fun i => if i = 0 then 0 else 1) [0, 1, 1, 5] (1 / 100) (w, l) =
          .ok (x, n) (w', l ++ l') ∧ l'.observations.map Prod.snd = [0, 1, 1, 5] ∧
        CloseTo (fun t i => if i = 0 then Real.sin t else Real.cos t) (C / 10 ^ 5) l') ∨ (1 : ℝ) / 10 ^ 6 < C * (9 / 10) ^ 498 := by
  obtain ⟨C, hC⟩ := oscillator_dense 0 10 1
  refine ⟨C, fun w l => ?_⟩
  have h0 : ‖(fun i => if i = 0 then 0 else 1 : Fin 2 → ℝ)‖ ≤ 1 := by
    rw [pi_norm_le_iff_of_nonneg (by norm_num)]
    intro i
    split <;> simp
  have := (hC ⟨1 / 10 ^ 6, 1 / 10 ^ 6, 1, 1⟩ (1 / 10) (1 / 10) 0 (1 / 100) (fun i => if i = 0 then 0 else 1)
    ⟨fun _ => 0, fun _ => 0, fun _ => false, fun _ => 0, 0⟩ w l ⟨by norm_num, by norm_num, by norm_num, by norm_num⟩ h0 (by norm_num) (by norm_num)).2
    [1, 1, 5] (by simp; norm_num) (by simp [MonotoneTimes]) (by norm_num) (.inr ⟨.inl ⟨by norm_num, by norm_num⟩, by rw [abs_of_pos (by norm_num)]⟩)
  rcases this with ⟨x, n, w', l', h1, h2, -, h3, -⟩ | ⟨w', l', -, -, -, -, h⟩
  · refine .inl ⟨x, n, w', l', h1, h2, ?_⟩
    have e : (fun i => if i = 0 then 0 else 1 : Fin 2 → ℝ) - (fun i => if i = 0 then Real.sin 0 else Real.cos 0) = 0 := by
      funext i; simp
    rw [e, norm_zero, zero_add] at h3
    convert h3 using 1
    ring
  · exact .inr h

end Verif
