import Verif.Lemmas.ImplicitEulerRun
import Mathlib.Analysis.Calculus.ContDiff.Deriv
import Mathlib.Tactic.Linarith
import Mathlib.Tactic.Positivity

/-! # One step of `implicit_euler` with a small step size -/

namespace Verif
open Finset Filter Topology

section
variable {V : Type} [NormedAddCommGroup V] [NormedSpace ℝ V]

/-- The backward difference of a solution, on a bounded interval. -/
theorem flow_backward {f : V → ℝ → V} (hf : GoodRhs f 1) {φ : ℝ → V} (hφ : IsFlowLine f φ) (a b : ℝ) :
    ∃ F D, 0 ≤ F ∧ 0 ≤ D ∧ (∀ t ∈ Set.Icc a b, ‖f (φ t) t‖ ≤ F) ∧
      (∀ t h, t ∈ Set.Icc a b → t + h ∈ Set.Icc a b → ‖φ (t + h) - φ t‖ ≤ F * |h| ∧ ‖φ t - φ (t + h) + h • f (φ (t + h)) (t + h)‖ ≤ D * h ^ 2) := by
  have hd : deriv φ = fun t => f (φ t) t := funext fun t => (hφ t).deriv
  have hc0 : Continuous φ := continuous_iff_continuousAt.2 fun t => (hφ t).continuousAt
  have hc1 : ContDiff ℝ 1 φ := by
    rw [contDiff_one_iff_deriv]
    refine ⟨fun t => (hφ t).differentiableAt, ?_⟩
    rw [hd]
    exact hf.smooth.continuous.comp (hc0.prodMk continuous_id)
  have hc2 : ContDiff ℝ 1 fun t => f (φ t) t := by
    have h := hf.smooth
    simp only [Nat.cast_one] at h
    exact h.comp (hc1.prodMk contDiff_id)
  obtain ⟨h1, h2⟩ := contDiff_one_iff_deriv.1 hc2
  obtain ⟨F, hF⟩ := (isCompact_Icc (a := a) (b := b)).exists_bound_of_continuousOn (f := fun t => f (φ t) t) hc2.continuous.continuousOn
  obtain ⟨D, hD⟩ := (isCompact_Icc (a := a) (b := b)).exists_bound_of_continuousOn (f := deriv fun t => f (φ t) t) h2.continuousOn
  have hF' : ∀ t ∈ Set.Icc a b, ‖f (φ t) t‖ ≤ max F 0 := fun t ht => (hF t ht).trans (le_max_left _ _)
  have hD' : ∀ t ∈ Set.Icc a b, ‖deriv (fun t => f (φ t) t) t‖ ≤ max D 0 := fun t ht => (hD t ht).trans (le_max_left _ _)
  refine ⟨max F 0, max D 0, le_max_right _ _, le_max_right _ _, hF', ?_⟩
  intro t h ht hth
  have hlip : ∀ s ∈ Set.Icc a b, ∀ s' ∈ Set.Icc a b, ‖f (φ s) s - f (φ s') s'‖ ≤ max D 0 * ‖s - s'‖ := fun s hs s' hs' =>
    (convex_Icc a b).norm_image_sub_le_of_norm_hasDerivWithin_le (f := fun t => f (φ t) t) (fun x _ => (h1 x).hasDerivAt.hasDerivWithinAt) hD' hs' hs
  constructor
  · have := (convex_Icc a b).norm_image_sub_le_of_norm_hasDerivWithin_le (f := φ) (fun x _ => (hφ x).hasDerivWithinAt) hF' ht hth
    simpa using this
  · have hseg : segment ℝ t (t + h) ⊆ Set.Icc a b := (convex_Icc a b).segment_subset ht hth
    have hb : ∀ s ∈ segment ℝ t (t + h), ‖f (φ s) s - f (φ (t + h)) (t + h)‖ ≤ max D 0 * |h| := by
      intro s hs
      refine (hlip s (hseg hs) _ hth).trans (mul_le_mul_of_nonneg_left ?_ (le_max_right _ _))
      rw [segment_eq_uIcc] at hs
      have := Set.abs_sub_right_of_mem_uIcc hs
      rw [Real.norm_eq_abs, abs_sub_comm]
      simpa using this
    have := (convex_segment t (t + h)).norm_image_sub_le_of_norm_hasDerivWithin_le (f := fun s => φ s - s • f (φ (t + h)) (t + h))
      (f' := fun s => f (φ s) s - f (φ (t + h)) (t + h))
      (fun x _ => by
        have := ((hφ x).sub ((hasDerivAt_id x).smul_const (f (φ (t + h)) (t + h)))).hasDerivWithinAt (s := segment ℝ t (t + h))
        rw [one_smul] at this
        exact this) hb (left_mem_segment ℝ t (t + h))
      (right_mem_segment ℝ t (t + h))
    rw [← norm_neg] at this
    have e : -(φ (t + h) - (t + h) • f (φ (t + h)) (t + h) - (φ t - t • f (φ (t + h)) (t + h))) = φ t - φ (t + h) + h • f (φ (t + h)) (t + h) := by
      rw [add_smul]; abel
    rw [e] at this
    refine this.trans (le_of_eq ?_)
    rw [add_sub_cancel_left, Real.norm_eq_abs, mul_assoc, abs_mul_abs_self, sq]

end

section
variable {W Pm : Type} {n : ℕ}

/-- The residual of the implicit Euler equation. -/
def ieResidual (f : (Fin n → ℝ) → ℝ → Fin n → ℝ) (x : Fin n → ℝ) (t h : ℝ) (y : Fin n → ℝ) : Fin n → ℝ := x - y + h • f y (t + h)

/-- Newton steps with an approximate inverse `-1`. -/
theorem ie_contract {f : (Fin n → ℝ) → ℝ → Fin n → ℝ} {Λ : ℝ} (hlip : ∀ x y t, ‖f x t - f y t‖ ≤ Λ * ‖x - y‖) (x y : Fin n → ℝ) (t h : ℝ) {η : ℝ}
    (hΛ : 0 ≤ Λ) (b : Fin n → ℝ) (hb : ‖b + ieResidual f x t h y‖ ≤ η * ‖ieResidual f x t h y‖) :
    ‖b‖ ≤ (1 + η) * ‖ieResidual f x t h y‖ ∧ ‖ieResidual f x t h (y - b)‖ ≤ (η + |h| * Λ * (1 + η)) * ‖ieResidual f x t h y‖ := by
  have h1 : ‖b‖ ≤ (1 + η) * ‖ieResidual f x t h y‖ := by
    have : b = (b + ieResidual f x t h y) - ieResidual f x t h y := by abel
    rw [this]
    refine (norm_sub_le _ _).trans ?_
    linarith
  refine ⟨h1, ?_⟩
  have e : ieResidual f x t h (y - b) = (b + ieResidual f x t h y) + h • (f (y - b) (t + h) - f y (t + h)) := by
    unfold ieResidual
    rw [smul_sub]; abel
  rw [e]
  have h2 : ‖f (y - b) (t + h) - f y (t + h)‖ ≤ Λ * ‖b‖ := by
    refine (hlip _ _ _).trans (le_of_eq ?_)
    rw [sub_sub_cancel_left, norm_neg]
  calc _ ≤ ‖b + ieResidual f x t h y‖ + ‖h • (f (y - b) (t + h) - f y (t + h))‖ := norm_add_le _ _
    _ ≤ η * ‖ieResidual f x t h y‖ + |h| * (Λ * ((1 + η) * ‖ieResidual f x t h y‖)) := by
        refine add_le_add hb ?_
        rw [norm_smul, Real.norm_eq_abs]
        gcongr
        exact h2.trans (by gcongr)
    _ = _ := by ring

variable {L : Lu ℝ n Pm} {c ε₀ : ℝ} {large : (Fin n → ℝ) → Bool} {ρ : ℝ} {sys : Sys ℝ (Fin n → ℝ) W} {jac : IeJac ℝ W n}
  {f : (Fin n → ℝ) → ℝ → Fin n → ℝ} {J : (Fin n → ℝ) → ℝ → Matrix (Fin n) (Fin n) ℝ} {B Λ : ℝ}

/-- The Newton iteration after `j` solutions of linear systems. -/
structure IeInv (L : Lu ℝ n Pm) (f : (Fin n → ℝ) → ℝ → Fin n → ℝ) (x : Fin n → ℝ) (t h c δ θ r : ℝ) (j : ℕ) (it : IeIter ℝ n Pm) : Prop where
  near : ∀ i k, |it.J i k + (1 : Matrix (Fin n) (Fin n) ℝ) i k| ≤ c ^ j * δ
  pm : it.pm = L.start
  res : ‖ieResidual f x t h it.mx‖ ≤ θ * r
  small : ‖ieResidual f x t h it.mx‖ ≤ (1 / 2) ^ j * r
  b : ‖it.b‖ ≤ 2 * (1 / 2) ^ (j - 1) * r

theorem ieSolve_inv (hL : L.NearMinusOne c ε₀) (hc : 1 ≤ c) (hlip : ∀ x y t, ‖f x t - f y t‖ ≤ Λ * ‖x - y‖) (hΛ : 0 ≤ Λ) (x : Fin n → ℝ) (t h δ θ r : ℝ)
    (hδ : 0 ≤ δ) (hr : 0 ≤ r) (N j : ℕ) (hj : j < N) (hN : c ^ N * δ ≤ ε₀) (hη : c ^ N * δ ≤ 1) (hθ : c ^ N * δ + 2 * Λ * |h| ≤ θ) (hθ2 : θ ≤ 1 / 2)
    (y : Fin n → ℝ) (m : Matrix (Fin n) (Fin n) ℝ) (hm : ∀ i k, |m i k + (1 : Matrix (Fin n) (Fin n) ℝ) i k| ≤ c ^ j * δ)
    (hy : ‖ieResidual f x t h y‖ ≤ (1 / 2) ^ j * r) :
    ∃ b J' pm', ieSolve L (ieResidual f x t h y) m L.start = some (b, J', pm') ∧ IeInv L f x t h c δ θ r (j + 1) ⟨y - b, b, J', pm'⟩ := by
  have hle : ∀ k ≤ N, c ^ k * δ ≤ c ^ N * δ := fun k hk => mul_le_mul_of_nonneg_right (pow_le_pow_right₀ hc hk) hδ
  obtain ⟨m', e1, e2, e3⟩ := hL _ ((hle j hj.le).trans hN) m hm
  have hη' : c * (c ^ j * δ) = c ^ (j + 1) * δ := by ring
  rw [hη'] at e2
  have e3 := e3 (ieResidual f x t h y)
  rw [hη'] at e3
  obtain ⟨k1, k2⟩ := ie_contract hlip x y t h hΛ _ e3
  have hη1 := hle (j + 1) hj
  have hη0 : 0 ≤ c ^ (j + 1) * δ := by positivity
  have hr0 : 0 ≤ ‖ieResidual f x t h y‖ := norm_nonneg _
  have hcontr : ‖ieResidual f x t h (y - L.substitute m' L.start (ieResidual f x t h y))‖ ≤ θ * ‖ieResidual f x t h y‖ := by
    refine k2.trans (mul_le_mul_of_nonneg_right ?_ hr0)
    have h0 : 0 ≤ |h| * Λ := by positivity
    have : |h| * Λ * (1 + c ^ (j + 1) * δ) ≤ |h| * Λ * 2 := mul_le_mul_of_nonneg_left (by linarith) h0
    linarith
  have hp : ((1 : ℝ) / 2) ^ j ≤ 1 := pow_le_one₀ (by norm_num) (by norm_num)
  have hθ0 : 0 ≤ θ := by
    have : 0 ≤ c ^ N * δ := by positivity
    have : 0 ≤ 2 * Λ * |h| := by positivity
    linarith
  refine ⟨L.substitute m' L.start (ieResidual f x t h y), m', L.start, ?_, e2, rfl, ?_, ?_, ?_⟩
  · simp only [ieSolve, e1]
  · refine hcontr.trans (mul_le_mul_of_nonneg_left (hy.trans ?_) hθ0)
    exact mul_le_of_le_one_left hr hp
  · refine hcontr.trans ((mul_le_mul hθ2 hy hr0 (by norm_num)).trans (le_of_eq ?_))
    rw [pow_succ]; ring
  · simp only [Nat.add_sub_cancel]
    refine k1.trans ((mul_le_mul (by linarith : _ ≤ (2 : ℝ)) hy hr0 (by norm_num)).trans (le_of_eq ?_))
    ring

/-- The loop ends before the matrix, which is factorized again and again, is too far from `-1`. -/
theorem ieLoop_small (hs : Evaluates sys f) (hL : L.NearMinusOne c ε₀) (hc : 1 ≤ c) (hlip : ∀ x y t, ‖f x t - f y t‖ ≤ Λ * ‖x - y‖) (hΛ : 0 ≤ Λ)
    (hlarge : ∀ b, ‖b‖ ≤ ρ → large b = false) (x : Fin n → ℝ) (t h δ θ r : ℝ)
    (hδ : 0 ≤ δ) (hr : 0 ≤ r) (N : ℕ) (hN : c ^ N * δ ≤ ε₀) (hη : c ^ N * δ ≤ 1) (hθ : c ^ N * δ + 2 * Λ * |h| ≤ θ) (hθ2 : θ ≤ 1 / 2)
    (hρ : 2 * (1 / 2) ^ (N - 1) * r ≤ ρ) : ∀ (k j : ℕ) (it : IeIter ℝ n Pm), j + k = N → IeInv L f x t h c δ θ r j it →
    ∃ it' : IeIter ℝ n Pm, (∀ w, ∃ w', whileM (ieCond large) (ieBody L sys x t h) (some it) w = .ok (some it') w') ∧
      ‖ieResidual f x t h it'.mx‖ ≤ θ * r := by
  intro k
  induction k with
  | zero =>
    rintro j it rfl hit
    have hb := hlarge _ (hit.b.trans hρ)
    exact ⟨it, fun w => ⟨w, by rw [whileM_stop (by exact hb)]⟩, hit.res⟩
  | succ k ih =>
    intro j it hj hit
    by_cases hb : large it.b = true
    · obtain ⟨b1, J1, pm1, e1, hit1⟩ := ieSolve_inv hL hc hlip hΛ x t h δ θ r hδ hr N j (by omega) hN hη hθ hθ2 it.mx it.J hit.near hit.small
      obtain ⟨it2, e2, hit2⟩ := ih (j + 1) _ (by omega) hit1
      refine ⟨it2, fun w => ?_, hit2⟩
      obtain ⟨w1, hw1⟩ := hs it.mx (t + h) w
      obtain ⟨w2, hw2⟩ := e2 w1
      refine ⟨w2, ?_⟩
      rw [← hw2]
      refine whileM_step_ok (by exact hb) ?_
      simp only [ieBody]
      rw [M.bind_ok hw1, hit.pm]
      unfold ieResidual at e1
      rw [e1]
      rfl
    · exact ⟨it, fun w => ⟨w, by rw [whileM_stop (by simpa [ieCond] using hb)]⟩, hit.res⟩

/-- One step. -/
theorem ieStep_small (hs : Evaluates sys f) (hjac : jac.Evaluates J) (hB : ∀ x t i j, |J x t i j| ≤ B) (hL : L.NearMinusOne c ε₀) (hc : 1 ≤ c)
    (hlip : ∀ x y t, ‖f x t - f y t‖ ≤ Λ * ‖x - y‖) (hΛ : 0 ≤ Λ) (hlarge : ∀ b, ‖b‖ ≤ ρ → large b = false) (x : Fin n → ℝ) (t h θ : ℝ) (N : ℕ)
    (hN1 : 1 ≤ N) (hB0 : 0 ≤ B)
    (hN : c ^ N * (|h| * B) ≤ ε₀) (hη : c ^ N * (|h| * B) ≤ 1) (hθ : c ^ N * (|h| * B) + 2 * Λ * |h| ≤ θ) (hθ2 : θ ≤ 1 / 2)
    (hρ : 2 * (1 / 2) ^ (N - 1) * (|h| * ‖f x (t + h)‖) ≤ ρ) :
    ∃ y, (∀ w, ∃ w', ieStep L large sys jac x t h w = .ok (some y) w') ∧ ‖ieResidual f x t h y‖ ≤ θ * (|h| * ‖f x (t + h)‖) := by
  have hδ : 0 ≤ |h| * B := by positivity
  have hr : 0 ≤ |h| * ‖f x (t + h)‖ := by positivity
  have e0 : ieResidual f x t h x = h • f x (t + h) := by simp [ieResidual]
  have hm : ∀ i k, |(h • J x (t + h) - 1) i k + (1 : Matrix (Fin n) (Fin n) ℝ) i k| ≤ c ^ 0 * (|h| * B) := by
    intro i k
    rw [Matrix.sub_apply, sub_add_cancel, Matrix.smul_apply, smul_eq_mul, abs_mul, pow_zero, one_mul]
    exact mul_le_mul_of_nonneg_left (hB _ _ _ _) (abs_nonneg _)
  obtain ⟨b1, J1, pm1, e1, hit1⟩ := ieSolve_inv hL hc hlip hΛ x t h _ θ _ hδ hr N 0 (by omega) hN hη hθ hθ2 x (h • J x (t + h) - 1) hm
    (by rw [e0, norm_smul, Real.norm_eq_abs, pow_zero, one_mul])
  obtain ⟨it2, e2, hit2⟩ := ieLoop_small hs hL hc hlip hΛ hlarge x t h _ θ _ hδ hr N hN hη hθ hθ2 hρ (N - 1) 1 _ (by omega) hit1
  refine ⟨it2.mx, fun w => ?_, hit2⟩
  obtain ⟨w1, hw1⟩ := hs x (t + h) w
  obtain ⟨w2, hw2⟩ := hjac x (t + h) w1
  obtain ⟨w3, hw3⟩ := e2 w2
  refine ⟨w3, ?_⟩
  have hfirst : ieFirst L sys jac x t h w = .ok (some ⟨x - b1, b1, J1, pm1⟩) w2 := by
    unfold ieFirst
    rw [M.bind_ok hw1, M.bind_ok hw2]
    rw [e0] at e1
    rw [e1]
    rfl
  unfold ieStep
  rw [M.bind_ok hfirst, M.bind_ok hw3]
  rfl

end
end Verif
