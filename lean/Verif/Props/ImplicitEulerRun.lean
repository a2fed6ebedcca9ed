import Verif.Lemmas.ImplicitEulerStep

/-! # C81: `implicit_euler` in the integrate functions -/

namespace Verif
open Finset Filter Topology
variable {W Pm : Type} {n : ℕ}

/-- The error after one step. -/
theorem ie_local_error {f : (Fin n → ℝ) → ℝ → Fin n → ℝ} {Λ : ℝ} (hΛ : 0 ≤ Λ) (hlip : ∀ x y t, ‖f x t - f y t‖ ≤ Λ * ‖x - y‖) {φ : ℝ → Fin n → ℝ}
    {t h F D Θ : ℝ} (hF0 : 0 ≤ F) (hF : ‖f (φ (t + h)) (t + h)‖ ≤ F) (hφ1 : ‖φ (t + h) - φ t‖ ≤ F * |h|)
    (hφ2 : ‖φ t - φ (t + h) + h • f (φ (t + h)) (t + h)‖ ≤ D * h ^ 2) (hD : 0 ≤ D) (hΘ : 0 ≤ Θ) (hh : |h| ≤ 1) (hh1 : Θ * |h| ≤ 1 / 2) (hh2 : Λ * |h| ≤ 1 / 2)
    (x y : Fin n → ℝ) (hy : ‖ieResidual f x t h y‖ ≤ Θ * |h| * (|h| * ‖f x (t + h)‖)) :
    ‖y - φ (t + h)‖ ≤ (1 + 3 * Λ * |h|) * ‖x - φ t‖ + 2 * (Θ * (F * (1 + Λ)) + D) * |h| ^ 2 := by
  set e := ‖x - φ t‖ with he
  set e' := ‖y - φ (t + h)‖ with he'
  set u := |h| with hu
  have hu0 : 0 ≤ u := abs_nonneg _
  have he0 : 0 ≤ e := norm_nonneg _
  have he0' : 0 ≤ e' := norm_nonneg _
  have hfx : ‖f x (t + h)‖ ≤ F * (1 + Λ) + Λ * e := by
    have e1 : f x (t + h) = (f x (t + h) - f (φ (t + h)) (t + h)) + f (φ (t + h)) (t + h) := by abel
    have e2 : x - φ (t + h) = (x - φ t) - (φ (t + h) - φ t) := by abel
    have h1 : ‖x - φ (t + h)‖ ≤ e + F := by
      rw [e2]
      refine (norm_sub_le _ _).trans (add_le_add le_rfl (hφ1.trans ?_))
      nlinarith
    rw [e1]
    calc _ ≤ _ := norm_add_le _ _
      _ ≤ Λ * (e + F) + F := add_le_add ((hlip _ _ _).trans (mul_le_mul_of_nonneg_left h1 hΛ)) hF
      _ = _ := by ring
  have hres : ‖ieResidual f x t h y‖ ≤ Θ * u ^ 2 * (F * (1 + Λ)) + 1 / 2 * (Λ * u) * e := by
    refine hy.trans ?_
    have h1 : Θ * u * (u * ‖f x (t + h)‖) ≤ Θ * u * (u * (F * (1 + Λ) + Λ * e)) := by gcongr
    have h2 : Θ * u * (u * (Λ * e)) ≤ 1 / 2 * (u * (Λ * e)) := mul_le_mul_of_nonneg_right hh1 (by positivity)
    nlinarith
  have hsplit : y - φ (t + h) = (x - φ t) + h • (f y (t + h) - f (φ (t + h)) (t + h)) - ieResidual f x t h y +
      (φ t - φ (t + h) + h • f (φ (t + h)) (t + h)) := by
    unfold ieResidual
    rw [smul_sub]; abel
  have hmain : e' ≤ e + Λ * u * e' + (Θ * u ^ 2 * (F * (1 + Λ)) + 1 / 2 * (Λ * u) * e) + D * u ^ 2 := by
    have h3 : ‖h • (f y (t + h) - f (φ (t + h)) (t + h))‖ ≤ Λ * u * e' := by
      rw [norm_smul, Real.norm_eq_abs, ← hu]
      calc u * ‖f y (t + h) - f (φ (t + h)) (t + h)‖ ≤ u * (Λ * e') := mul_le_mul_of_nonneg_left (hlip _ _ _) hu0
        _ = _ := by ring
    have h4 : ‖φ t - φ (t + h) + h • f (φ (t + h)) (t + h)‖ ≤ D * u ^ 2 := by rw [hu, sq_abs]; exact hφ2
    calc e' ≤ ‖(x - φ t) + h • (f y (t + h) - f (φ (t + h)) (t + h)) - ieResidual f x t h y‖ + ‖φ t - φ (t + h) + h • f (φ (t + h)) (t + h)‖ := by
          rw [he', hsplit]; exact norm_add_le _ _
      _ ≤ ‖(x - φ t) + h • (f y (t + h) - f (φ (t + h)) (t + h))‖ + ‖ieResidual f x t h y‖ + D * u ^ 2 := add_le_add (norm_sub_le _ _) h4
      _ ≤ (e + Λ * u * e') + (Θ * u ^ 2 * (F * (1 + Λ)) + 1 / 2 * (Λ * u) * e) + D * u ^ 2 :=
          add_le_add (add_le_add ((norm_add_le _ _).trans (add_le_add le_rfl h3)) hres) le_rfl
  set v := Λ * u with hv
  have hv0 : 0 ≤ v := by positivity
  set G := (Θ * (F * (1 + Λ)) + D) * u ^ 2 with hG
  have hG0 : 0 ≤ G := by positivity
  have hmain' : (1 - v) * e' ≤ (1 + 1 / 2 * v) * e + G := by
    have : G = Θ * u ^ 2 * (F * (1 + Λ)) + D * u ^ 2 := by rw [hG]; ring
    linarith
  have h5 : (1 - v) * e' ≤ (1 - v) * ((1 + 3 * v) * e + 2 * G) := by
    refine hmain'.trans ?_
    have h6 : (1 + 1 / 2 * v) * e ≤ (1 - v) * (1 + 3 * v) * e := mul_le_mul_of_nonneg_right (by nlinarith) he0
    have h7 : G ≤ (1 - v) * (2 * G) := by nlinarith
    linarith
  have h8 := le_of_mul_le_mul_left h5 (by linarith)
  calc e' ≤ _ := h8
    _ = _ := by rw [hv, hG]; ring

/-- One step, with constants that depend on an interval of times and on the distance from the solution. -/
theorem ie_step_bounds (L : Lu ℝ n Pm) {c ε₀ : ℝ} (hc : 1 ≤ c) (hε₀ : 0 < ε₀) (hL : L.NearMinusOne c ε₀) {large : (Fin n → ℝ) → Bool} {ρ : ℝ} (hρ : 0 < ρ)
    (hlarge : ∀ b, ‖b‖ ≤ ρ → large b = false) {sys : Sys ℝ (Fin n → ℝ) W} {f : (Fin n → ℝ) → ℝ → Fin n → ℝ} (hs : Evaluates sys f) (hf : GoodRhs f 1)
    {jac : IeJac ℝ W n} {J : (Fin n → ℝ) → ℝ → Matrix (Fin n) (Fin n) ℝ} (hjac : jac.Evaluates J) {B : ℝ} (hB0 : 0 ≤ B) (hB : ∀ x t i j, |J x t i j| ≤ B)
    {Λ : ℝ} (hΛ : 0 ≤ Λ) (hlip : ∀ x y t, ‖f x t - f y t‖ ≤ Λ * ‖x - y‖)
    {φ : ℝ → Fin n → ℝ} (hφ : IsFlowLine f φ) (a b E : ℝ) (hE0 : 0 ≤ E) :
    ∃ C1 h₀, 0 ≤ C1 ∧ 0 < h₀ ∧ ∀ x t h, |h| ≤ h₀ → t ∈ Set.Icc a b → t + h ∈ Set.Icc a b → ‖x - φ t‖ ≤ E →
      ∃ y, (∀ q w l, ∃ q' w', (ieObject L large sys jac).doStep q x t h (w, l) = .ok (q', y) (w', l)) ∧
        ‖y - φ (t + h)‖ ≤ (1 + 3 * Λ * |h|) * ‖x - φ t‖ + C1 * |h| ^ 2 := by
  obtain ⟨F, D, hF0, hD0, hF, hFD⟩ := flow_backward hf hφ a b
  set G := F * (1 + Λ) + Λ * E with hG
  have hG0 : 0 ≤ G := by positivity
  obtain ⟨k, hk⟩ := exists_pow_lt_of_lt_one (show 0 < ρ / (2 * G + 1) by positivity) (show (1 / 2 : ℝ) < 1 by norm_num)
  set N := k + 1 with hN
  have hk' : 2 * (1 / 2) ^ (N - 1) * G ≤ ρ := by
    rw [lt_div_iff₀ (by positivity)] at hk
    have : (0 : ℝ) ≤ (1 / 2) ^ k := by positivity
    simp only [hN, Nat.add_sub_cancel]
    nlinarith
  have hcN : 0 ≤ c ^ N := by positivity
  generalize hA : c ^ N = A at hcN
  set Θ := A * B + 2 * Λ with hΘ
  have hΘ0 : 0 ≤ Θ := by positivity
  refine ⟨2 * (Θ * (F * (1 + Λ)) + D), min 1 (min (1 / (2 * Θ + 1)) (ε₀ / (A * B + 1))), by positivity,
    lt_min one_pos (lt_min (by positivity) (by positivity)), ?_⟩
  intro x t h hh ht hth hx
  have h0 := abs_nonneg h
  have b1 := hh.trans (min_le_left _ _)
  have b2 := hh.trans ((min_le_right _ _).trans (min_le_left _ _))
  have b3 := hh.trans ((min_le_right _ _).trans (min_le_right _ _))
  rw [le_div_iff₀ (by positivity)] at b2 b3
  obtain ⟨k1, k2⟩ := hFD t h ht hth
  have hfx : ‖f x (t + h)‖ ≤ G := by
    have e1 : f x (t + h) = (f x (t + h) - f (φ (t + h)) (t + h)) + f (φ (t + h)) (t + h) := by abel
    have e2 : x - φ (t + h) = (x - φ t) - (φ (t + h) - φ t) := by abel
    have h1 : ‖x - φ (t + h)‖ ≤ E + F := by
      rw [e2]
      refine (norm_sub_le _ _).trans (add_le_add hx (k1.trans ?_))
      nlinarith
    rw [e1]
    calc _ ≤ _ := norm_add_le _ _
      _ ≤ Λ * (E + F) + F := add_le_add ((hlip _ _ _).trans (mul_le_mul_of_nonneg_left h1 hΛ)) (hF _ hth)
      _ = _ := by rw [hG]; ring
  have hΘh : A * (|h| * B) + 2 * Λ * |h| = Θ * |h| := by rw [hΘ]; ring
  have hp : 0 ≤ 2 * Λ * |h| := by positivity
  have hp2 : 0 ≤ A * (|h| * B) := by positivity
  obtain ⟨y, y1, y2⟩ := ieStep_small hs hjac hB hL hc hlip hΛ hlarge x t h (Θ * |h|) N (by omega) hB0 (by rw [hA]; nlinarith) (by rw [hA]; nlinarith)
    (by rw [hA]; exact hΘh.le) (by nlinarith) (by
      refine le_trans ?_ hk'
      have : |h| * ‖f x (t + h)‖ ≤ G := (mul_le_of_le_one_left (norm_nonneg _) b1).trans hfx
      gcongr)
  refine ⟨y, fun q w l => ?_, ?_⟩
  · obtain ⟨w', hw'⟩ := y1 w
    exact ⟨(), w', by simp only [ieObject, hw']⟩
  · exact ie_local_error hΛ hlip hF0 (hF _ hth) k1 k2 hD0 hΘ0 b1 (by nlinarith) (by nlinarith) x y y2

/-- Convergence of order `p` of steppers whose steps are good near the solution: up to errors of the size `D * |h|` they are of order `p`. -/
theorem converges_on_of_steps {V Q : Type} [NormedAddCommGroup V] [NormedSpace ℝ V] {st : BasicStepper Q (W × Log V ℝ) V ℝ} {φ : ℝ → V} {Λ D a b : ℝ} {p : ℕ}
    (hp : p ≠ 0) (hΛ : 0 ≤ Λ) (hD : 0 ≤ D)
    (H : ∀ E : ℝ, 0 ≤ E → ∃ C1 h₀, 0 ≤ C1 ∧ 0 < h₀ ∧ ∀ x t h, h ≠ 0 → |h| ≤ h₀ → t ∈ Set.Icc (a - 2) (b + 2) → t + h ∈ Set.Icc (a - 2) (b + 2) → ‖x - φ t‖ ≤ E →
      ∃ y, (∀ q w l, ∃ q' w', st.doStep q x t h (w, l) = .ok (q', y) (w', l)) ∧
        ‖y - φ (t + h)‖ ≤ (1 + Λ * |h|) * ‖x - φ t‖ + |h| * (D + C1 * |h| ^ p)) :
    ConvergesOn a b p (3 * D * (b - a + 1) * Real.exp (Λ * (b - a + 1))) st φ := by
  classical
  rcases lt_or_ge b a with hab | hab
  · intro R
    exact ⟨0, 1, one_pos, fun eps t0 t1 dt x0 q w l _ _ ht0 => absurd (ht0.1.trans ht0.2) (not_le.2 hab)⟩
  refine converges_on_of_follows fun R' => ?_
  set T := b - a + 1 with hT
  set R := max R' 0 with hR
  have hT1 : 1 ≤ T := by linarith
  have hT0 : 0 ≤ T := by linarith
  have hR0 : 0 ≤ R := le_max_right _ _
  set E := Real.exp (Λ * T) * (R + (T * D + 1)) with hE
  have hE0 : 0 ≤ E := by positivity
  obtain ⟨C1, h₁, hC10, hh₁, hstep⟩ := H E hE0
  choose! Φ hΦ using hstep
  set C0 := Real.exp (Λ * T) * (1 + T * C1) with hC0
  have hC00 : 0 ≤ C0 := by positivity
  refine ⟨(1 + Λ) * C0 + C1, min (min (min 1 h₁) (1 / (T * C1 + 1))) (1 / (Λ + 1)), by positivity,
    lt_min (lt_min (lt_min one_pos hh₁) (by positivity)) (by positivity), ?_⟩
  intro t0 dt x0 m hdt hdt1 hx0 hmT hin
  have h0 := abs_nonneg dt
  have hpos : 0 < |dt| := abs_pos.2 hdt
  have b0 := hdt1.trans (min_le_left _ _)
  have b1 : |dt| ≤ 1 := b0.trans ((min_le_left _ _).trans (min_le_left _ _))
  have b2 : |dt| ≤ h₁ := b0.trans ((min_le_left _ _).trans (min_le_right _ _))
  have b4 : T * (C1 * |dt|) ≤ 1 := by
    have := b0.trans (min_le_right _ _)
    rw [le_div_iff₀ (by positivity)] at this
    nlinarith
  have b5 : Λ * |dt| ≤ 1 := by
    have := hdt1.trans (min_le_right _ _)
    rw [le_div_iff₀ (by positivity)] at this
    nlinarith
  have hpp : ∀ s : ℝ, 0 ≤ s → s ≤ 1 → s ^ p ≤ s := fun s h1 h2 => pow_le_of_le_one h1 h2 hp
  have hmT' : (m : ℝ) * |dt| ≤ T := hmT
  have hx0' : ‖x0 - φ t0‖ ≤ R := hx0.trans (le_max_left _ _)
  set X := orbit Φ t0 dt x0 with hX
  have hin' : ∀ k ≤ m, t0 + (k : ℝ) * dt ∈ Set.Icc (a - 2) (b + 2) := fun k hk => ⟨by linarith [(hin k hk).1], by linarith [(hin k hk).2]⟩
  have hadd : ∀ k : ℕ, t0 + ((k + 1 : ℕ) : ℝ) * dt = t0 + (k : ℝ) * dt + dt := fun k => by push_cast; ring
  set c := D + C1 * |dt| ^ p with hc
  have hc0 : 0 ≤ c := by positivity
  have hTc : T * c ≤ T * D + 1 := by
    have := hpp |dt| h0 b1
    have h1 : T * (C1 * |dt| ^ p) ≤ T * (C1 * |dt|) := by gcongr
    rw [hc, mul_add]
    linarith
  -- the errors
  have hbound : ∀ k ≤ m, Real.exp (Λ * (k * |dt|)) * (‖x0 - φ t0‖ + k * |dt| * c) ≤ E ∧
      Real.exp (Λ * (k * |dt|)) * (‖x0 - φ t0‖ + k * |dt| * c) ≤ C0 * (‖x0 - φ t0‖ + |dt| ^ p) + D * T * Real.exp (Λ * T) := by
    intro k hk
    have hk' : (k : ℝ) * |dt| ≤ T := (mul_le_mul_of_nonneg_right (by exact_mod_cast hk) h0).trans hmT'
    have hexp : Real.exp (Λ * (k * |dt|)) ≤ Real.exp (Λ * T) := Real.exp_le_exp.2 (mul_le_mul_of_nonneg_left hk' hΛ)
    have h1 : (k : ℝ) * |dt| * c ≤ T * c := mul_le_mul_of_nonneg_right hk' hc0
    have hx00 := norm_nonneg (x0 - φ t0)
    refine ⟨mul_le_mul hexp (by linarith) (by positivity) (by positivity), ?_⟩
    have hC0' : C0 * (‖x0 - φ t0‖ + |dt| ^ p) + D * T * Real.exp (Λ * T) =
        Real.exp (Λ * T) * ((1 + T * C1) * (‖x0 - φ t0‖ + |dt| ^ p) + D * T) := by rw [hC0]; ring
    rw [hC0']
    refine mul_le_mul hexp ?_ (by positivity) (by positivity)
    have h2 : 0 ≤ T * C1 * ‖x0 - φ t0‖ := by positivity
    have h3 : 0 ≤ |dt| ^ p := by positivity
    have h4 : T * c = T * D + T * C1 * |dt| ^ p := by rw [hc]; ring
    nlinarith
  have herr : ∀ k ≤ m, ‖X k - φ (t0 + k * dt)‖ ≤ Real.exp (Λ * (k * |dt|)) * (‖x0 - φ t0‖ + k * |dt| * c) := by
    intro k
    induction k using Nat.strong_induction_on with
    | _ k ih =>
      intro hk
      have e1 : c / |dt| * |dt| = c := div_mul_cancel₀ _ hpos.ne'
      have := accumulate (e := fun k : ℕ => ‖X k - φ (t0 + k * dt)‖) (Λ := Λ) (C := c / |dt|) (h := |dt|) (N := k) hΛ (by positivity) h0 (fun j hj => by
        have hje := (ih j hj (by omega)).trans (hbound j (by omega)).1
        have := (hΦ (X j) (t0 + j * dt) dt hdt b2 (hin' j (by omega)) (by rw [← hadd]; exact hin' (j + 1) (by omega)) hje).2
        rw [← hadd] at this
        rw [pow_two, ← mul_assoc, e1, mul_comm c]
        exact this) (norm_nonneg _) k le_rfl
      rw [e1] at this
      simpa [hX, orbit] using this
  refine ⟨X, rfl, ?_, ?_, ?_⟩
  · intro k hk q w l
    exact (hΦ (X k) (t0 + k * dt) dt hdt b2 (hin' k hk.le) (by rw [← hadd]; exact hin' (k + 1) hk) ((herr k hk.le).trans (hbound k hk.le).1)).1 q w l
  · intro k hk
    refine (herr k hk).trans ((hbound k hk).2.trans ?_)
    have hs0 : 0 ≤ ‖x0 - φ t0‖ + |dt| ^ p := by positivity
    refine add_le_add (mul_le_mul_of_nonneg_right ?_ hs0) ?_
    · have : 0 ≤ Λ * C0 := by positivity
      linarith
    · have : 0 ≤ D * T * Real.exp (Λ * T) := by positivity
      linarith
  · intro h hne hh
    have hend : t0 + m * dt + h ∈ Set.Icc (a - 2) (b + 2) := by
      have := abs_le.1 (hh.trans b1)
      exact ⟨by linarith [(hin m le_rfl).1], by linarith [(hin m le_rfl).2]⟩
    obtain ⟨h1, h2⟩ := hΦ (X m) (t0 + m * dt) h hne (hh.trans b2) (hin' m le_rfl) hend ((herr m le_rfl).trans (hbound m le_rfl).1)
    refine ⟨_, h1, h2.trans ?_⟩
    have hh0 := abs_nonneg h
    have hh1 : |h| ≤ 1 := hh.trans b1
    have h3 := (herr m le_rfl).trans (hbound m le_rfl).2
    set S := ‖x0 - φ t0‖ + |dt| ^ p with hS
    have hS0 : 0 ≤ S := by positivity
    set X1 := D * T * Real.exp (Λ * T) with hX1
    have hX10 : 0 ≤ X1 := by positivity
    have hΛh : Λ * |h| ≤ 1 := (mul_le_mul_of_nonneg_left hh hΛ).trans b5
    have hΛh' : Λ * |h| ≤ Λ := mul_le_of_le_one_right hΛ hh1
    have h4 : (1 + Λ * |h|) * ‖X m - φ (t0 + m * dt)‖ ≤ (1 + Λ) * (C0 * S) + 2 * X1 := by
      refine (mul_le_mul_of_nonneg_left h3 (by positivity)).trans ?_
      rw [mul_add]
      refine add_le_add (mul_le_mul_of_nonneg_right (by linarith) (by positivity)) (mul_le_mul_of_nonneg_right (by linarith) hX10)
    have h5 : |h| * (D + C1 * |h| ^ p) ≤ X1 + C1 * S := by
      have e1 : 1 ≤ Real.exp (Λ * T) := Real.one_le_exp (by positivity)
      have e2 : D ≤ X1 := by
        rw [hX1]
        have : D ≤ D * T := le_mul_of_one_le_right hD hT1
        exact this.trans (le_mul_of_one_le_right (by positivity) e1)
      have e3 : |h| ^ p ≤ S := by
        rw [hS]
        have : |h| ^ p ≤ |dt| ^ p := pow_le_pow_left₀ hh0 hh p
        linarith [norm_nonneg (x0 - φ t0)]
      have e4 : C1 * |h| ^ p ≤ C1 * S := mul_le_mul_of_nonneg_left e3 hC10
      have e5 : 0 ≤ D + C1 * |h| ^ p := by positivity
      have e6 := mul_le_of_le_one_left e5 hh1
      linarith
    have e : 3 * D * T * Real.exp (Λ * T) = 3 * X1 := by rw [hX1]; ring
    rw [e]
    nlinarith

/-- Convergence of order one of steppers whose steps are good near the solution. -/
theorem converges_small_of_steps {V Q : Type} [NormedAddCommGroup V] [NormedSpace ℝ V] {st : BasicStepper Q (W × Log V ℝ) V ℝ} {φ : ℝ → V} {Λ : ℝ} (hΛ : 0 ≤ Λ)
    (H : ∀ a b E : ℝ, 0 ≤ E → ∃ C1 h₀, 0 ≤ C1 ∧ 0 < h₀ ∧ ∀ x t h, |h| ≤ h₀ → t ∈ Set.Icc a b → t + h ∈ Set.Icc a b → ‖x - φ t‖ ≤ E →
      ∃ y, (∀ q w l, ∃ q' w', st.doStep q x t h (w, l) = .ok (q', y) (w', l)) ∧
        ‖y - φ (t + h)‖ ≤ (1 + Λ * |h|) * ‖x - φ t‖ + C1 * |h| ^ 2) : ConvergesForSmallSteps 1 st φ := by
  intro a b
  have := converges_on_of_steps (st := st) (φ := φ) (a := a) (b := b) (D := 0) one_ne_zero hΛ le_rfl fun E hE => by
    obtain ⟨C1, h₀, h1, h2, h3⟩ := H (a - 2) (b + 2) E hE
    refine ⟨C1, h₀, h1, h2, fun x t h _ hh ht ht' hx => ?_⟩
    obtain ⟨y, y1, y2⟩ := h3 x t h hh ht ht' hx
    exact ⟨y, y1, y2.trans (le_of_eq (by ring))⟩
  simpa using this

/-- **C81** for any linear solver that is good near `-1`. -/
theorem implicit_euler_converges_solver (L : Lu ℝ n Pm) {c ε₀ : ℝ} (hc : 1 ≤ c) (hε₀ : 0 < ε₀) (hL : L.NearMinusOne c ε₀) {large : (Fin n → ℝ) → Bool} {ρ : ℝ}
    (hρ : 0 < ρ) (hlarge : ∀ b, ‖b‖ ≤ ρ → large b = false) {sys : Sys ℝ (Fin n → ℝ) W} {f : (Fin n → ℝ) → ℝ → Fin n → ℝ} (hs : Evaluates sys f)
    (hf : GoodRhs f 1) {jac : IeJac ℝ W n} {J : (Fin n → ℝ) → ℝ → Matrix (Fin n) (Fin n) ℝ} (hjac : jac.Evaluates J) {B : ℝ} (hB : ∀ x t i j, |J x t i j| ≤ B)
    {φ : ℝ → Fin n → ℝ} (hφ : IsFlowLine f φ) : ConvergesForSmallSteps 1 (ieObject L large sys jac) φ := by
  obtain ⟨Λ, hlip⟩ := hf.lipschitz
  refine converges_small_of_steps (Λ := 3 * max Λ 0) (by positivity) fun a b E hE => ?_
  exact ie_step_bounds L hc hε₀ hL hρ hlarge hs hf hjac (le_max_right B 0) (fun x t i j => (hB x t i j).trans (le_max_left _ _)) (le_max_right Λ 0)
    (fun x y t => (hlip x y t).trans (mul_le_mul_of_nonneg_right (le_max_left _ _) (norm_nonneg _))) hφ a b E hE

end Verif
