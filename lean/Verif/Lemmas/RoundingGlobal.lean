import Verif.Lemmas.RoundingRecipes
import Verif.Lemmas.GlobalError
import Verif.Lemmas.GridRun
import Verif.Spec.Rounding

/-! # Runs with rounding -/

namespace Verif
open Finset

variable {W : Type} {d : ℕ}

theorem Rounding.Accurate.le_one {ρ : Rounding} {B : ℝ} (H : ρ.Accurate B) (hB : 1 ≤ B) : ρ.u ≤ 1 := by
  have := H.small
  nlinarith [H.nonneg]

/-- a rounding after an error of `c u` -/
theorem rnd_step {ρ : Rounding} {B c S y z : ℝ} (H : ρ.Accurate B) (hB : 1 ≤ B) (hy : |y - z| ≤ c * ρ.u) (hz : |z| ≤ S) (hc : 0 ≤ c) (hS : S + c ≤ B) :
    |ρ.rnd y - z| ≤ (1 + S + 2 * c) * ρ.u := by
  have hu := H.nonneg
  have hu1 := H.le_one hB
  have h1 : |y| ≤ S + c := by
    have : |y| ≤ |y - z| + |z| := by
      have := abs_add_le (y - z) z
      rwa [sub_add_cancel] at this
    nlinarith
  have h2 := H.close y (by nlinarith [abs_nonneg y])
  have h3 : |ρ.rnd y - z| ≤ |ρ.rnd y - y| + |y - z| := abs_sub_le _ _ _
  nlinarith

/-- the times of the grid -/
theorem rounded_grid (S T : ℝ) (hS : 0 ≤ S) (hT : 0 ≤ T) : ∃ c, 1 ≤ c ∧ ∀ (ρ : Rounding), ρ.Accurate c → ∀ (eps t0 dt : Fl ρ) (k : ℕ),
    |t0.val| ≤ S → |dt.val| ≤ 1 → k * |dt.val| ≤ T → ρ.u * k ≤ 1 →
    |(gridTime (TimeArith.rounded ρ eps) t0 dt k).val - (t0.val + k * dt.val)| ≤ c * ρ.u := by
  refine ⟨20 + 20 * T + 20 * S, by linarith, fun ρ H eps t0 dt k ht0 hdt hk huk => ?_⟩
  have hu := H.nonneg
  have hB : (1 : ℝ) ≤ 20 + 20 * T + 20 * S := by linarith
  unfold gridTime
  split
  · rename_i h0
    subst h0
    simp only [Nat.cast_zero, zero_mul, add_zero, sub_self, abs_zero]
    positivity
  have h1 : |ρ.rnd k - k| ≤ ρ.u * (1 + k) := by
    have := H.close k (by rw [Nat.abs_cast]; linarith)
    rwa [Nat.abs_cast] at this
  have h2 : |ρ.rnd k * dt.val - k * dt.val| ≤ (1 + T) * ρ.u := by
    rw [← sub_mul, abs_mul]
    calc |ρ.rnd k - k| * |dt.val| ≤ ρ.u * (1 + k) * |dt.val| := mul_le_mul_of_nonneg_right h1 (abs_nonneg _)
      _ = ρ.u * (|dt.val| + k * |dt.val|) := by ring
      _ ≤ ρ.u * (1 + T) := mul_le_mul_of_nonneg_left (add_le_add hdt hk) hu
      _ = _ := mul_comm _ _
  have hkd : |(k : ℝ) * dt.val| ≤ T := by rwa [abs_mul, Nat.abs_cast]
  have h3 := rnd_step H hB h2 hkd (by linarith) (by linarith)
  have h4 : |t0.val + ρ.rnd (ρ.rnd k * dt.val) - (t0.val + k * dt.val)| ≤ (1 + T + 2 * (1 + T)) * ρ.u := by
    rwa [add_sub_add_left_eq_sub]
  have h5 : |t0.val + k * dt.val| ≤ S + T := (abs_add_le _ _).trans (add_le_add ht0 hkd)
  have h6 := rnd_step H hB h4 h5 (by linarith) (by linarith)
  refine le_trans (le_of_eq ?_) (h6.trans (mul_le_mul_of_nonneg_right (by linarith) hu))
  rw [show (k : ℝ) = ((k : ℤ) : ℝ) by simp]
  rfl

theorem fixed_wellFormed (s : FixedStepper) (hs : (s.stepper ℝ).WellFormed) (ρ : Rounding) : (s.stepper (Fl ρ)).WellFormed := by
  cases s <;> first | trivial | exact hs

/-- A step of the stepper object, in any arithmetic. -/
theorem explicit_step_any {K V : Type} [Add K] [Sub K] [Mul K] [Div K] [IntCast K] [Neg K] [StateOps K V] (s : ExplicitStepper K) (hw : s.WellFormed)
    {sys : Sys K V W} {g : V → K → V} (hs : Evaluates sys g) {x y : V} {t dt : K} (hr : Yields (s.recipe sys x (g x t) t dt) y)
    (q : Heap K V W) (w : W) (l : Log V K) :
    ∃ q' w', (stepperObject fun l t dt => doStep1 s.impl sys l t dt).doStep q x t dt (w, l) = .ok (q', y) (w', l) := by
  obtain ⟨w1, e1⟩ := hs x t w
  obtain ⟨w2, e2⟩ := hr w1
  have H := doStep1_implements s hw sys (.user 0) t dt ((q.set (.user 0) x).withWorld w) (ownedBy_user _ _)
  have hx : ((q.set (.user 0) x).withWorld w).state (.user 0) = x := by simp [Heap.withWorld, Heap.set]
  rw [hx] at H
  have e3 : (sys x t >>= fun k => s.recipe sys x k t dt) w = .ok y w2 := by rw [M.bind_ok e1, e2]
  unfold Implements at H
  rw [show ((q.set (.user 0) x).withWorld w).world = w from rfl, e3] at H
  obtain ⟨heap', r1, -, r2⟩ := H
  refine ⟨heap', heap'.world, ?_⟩
  have h3 : heap'.state (.user 0) = y := by rw [(r2 _ (ownedBy_user _ _)).1]; simp [Heap.setAll]
  simp only [stepperObject, r1, h3]

/-- The error recursion of a run with rounding. -/
theorem rounded_growth {p : ℕ} {L M B T e0 u h : ℝ} (hL : 0 ≤ L) (hM : 0 ≤ M) (hB : 0 ≤ B) (hT : 0 ≤ T) (hh : 0 < h) (hu : 0 ≤ u) (he0 : 0 ≤ e0)
    (e : ℕ → ℝ) (n : ℕ) (hn : n * h ≤ T)
    (he : ∀ i ≤ n, 0 ≤ e i) (h0 : e 0 = e0) (hstep : ∀ i < n, e (i + 1) ≤ (1 + L * h) * e i + M * h ^ (p + 1) + B * u) :
    e n ≤ Real.exp (L * T) * (1 + T * (M + B)) * (e0 + h ^ p + u / h) := by
  have key := error_growth (p := 0) (H := h) (M := M * h ^ p + B * (u / h)) hL (by positivity) e (fun _ => h) n
    (fun i _ => ⟨hh.le, le_rfl⟩) (fun i hi => ?_) he
  · refine key.trans ?_
    simp only [sum_const, card_range, nsmul_eq_mul, pow_zero, mul_one]
    have h1 : Real.exp (L * (n * h)) ≤ Real.exp (L * T) := Real.exp_le_exp.2 (mul_le_mul_of_nonneg_left hn hL)
    rw [mul_assoc (Real.exp (L * T)), h0]
    have h3 : 0 ≤ u / h := by positivity
    have h4 : 0 ≤ h ^ p := by positivity
    refine mul_le_mul h1 ?_ (by positivity) (Real.exp_pos _).le
    have h2 : (M * h ^ p + B * (u / h)) * (n * h) ≤ (M * h ^ p + B * (u / h)) * T := mul_le_mul_of_nonneg_left hn (by positivity)
    nlinarith [mul_nonneg hT hM, mul_nonneg hT hB, mul_nonneg (mul_nonneg hT hM) h3, mul_nonneg (mul_nonneg hT hB) h4,
      mul_nonneg (mul_nonneg hT hM) he0, mul_nonneg (mul_nonneg hT hB) he0]
  · refine (hstep i hi).trans (le_of_eq ?_)
    have : B * (u / h) * h = B * u := by field_simp
    rw [zero_add, pow_one, add_mul (M * h ^ p), this, pow_succ]
    ring

/-- The global error of a one-step method with rounding: each step is made from the derivative `g (X k) (s k)` at the time `t' k`; `s k` and `t' k` are
rounded versions of the time `t0 + k dt`. -/
theorem rounded_error {p : ℕ} {f : (Fin d → ℝ) → ℝ → Fin d → ℝ} (hf : GoodRhs f (p + 1)) {Φ : (Fin d → ℝ) → ℝ → ℝ → Fin d → ℝ}
    (hΦ : RegularStep (p + 1) Φ) {φ : ℝ → Fin d → ℝ} (hφ : IsFlowLine f φ) (hord : ∀ t, LocalOrder p (Φ (φ t) t) t φ) (a b T : ℝ) (κ : ℝ → ℝ) (c : ℝ) (hc : 0 ≤ c) :
    ∃ R, ∀ v' : RoundedStep W d → Fin d → ℝ, NearV f κ R v' (fun e => Φ e.x e.t e.h) →
      ∃ C, 1 ≤ C ∧ ∀ (ρ : Rounding) (sys : Sys (Fl ρ) (Fin d → Fl ρ) W) (g : (Fin d → ℝ) → ℝ → Fin d → ℝ), ρ.Accurate C → Evaluates sys (flSys g) →
        (∀ r ≤ C, ∀ x t, ‖x‖ ≤ r → |t| ≤ r → ‖g x t - f x t‖ ≤ κ r * ρ.u) →
        ∀ (t0 dt : ℝ) (n : ℕ) (X : ℕ → Fin d → ℝ) (s t' : ℕ → ℝ), dt ≠ 0 → |dt| ≤ 1 → n * |dt| ≤ T → (∀ k : ℕ, k ≤ n → t0 + k * dt ∈ Set.Icc a b) →
          (∀ k ≤ n, |s k - (t0 + k * dt)| ≤ c * ρ.u ∧ |t' k - (t0 + k * dt)| ≤ c * ρ.u) →
          (∀ k < n, X (k + 1) = v' ⟨ρ, sys, g, X k, g (X k) (s k), t' k, t0 + k * dt, dt⟩) →
          C * (‖X 0 - φ t0‖ + |dt| ^ p + ρ.u / |dt|) ≤ 1 →
          ∀ k : ℕ, k ≤ n → ‖X k - φ (t0 + k * dt)‖ ≤ C * (‖X 0 - φ t0‖ + |dt| ^ p + ρ.u / |dt|) := by
  have hφc : Continuous φ := continuous_iff_continuousAt.2 fun t => (hφ t).continuousAt
  obtain ⟨P, hP⟩ := (isCompact_Icc (a := a) (b := b)).exists_bound_of_continuousOn hφc.continuousOn
  set R0 := max (P + 1) (max |a| |b|) + c with hR0
  obtain ⟨L0, hL0, hLip⟩ := lipschitz_on_bounded (hf.smooth.of_le (by exact_mod_cast (by omega : 1 ≤ p + 1))) R0
  refine ⟨max R0 (|κ R0| + L0 * c), fun v' hv => ?_⟩
  set R := max R0 (|κ R0| + L0 * c) with hR
  obtain ⟨B, hB, HB⟩ := hv
  obtain ⟨M, hM, hloc⟩ := local_error_uniform hf hΦ hφ hord a b 1
  obtain ⟨L, hL, hlip⟩ := hΦ.lipschitz 1
  set C0 := Real.exp (L * |T|) * (1 + |T| * (M + B)) with hC0
  refine ⟨max (max C0 B) (max 1 R0), (le_max_left _ _).trans (le_max_right _ _), ?_⟩
  set C := max (max C0 B) (max 1 R0) with hC
  have hC1 : 1 ≤ C := (le_max_left _ _).trans (le_max_right _ _)
  have hCC0 : C0 ≤ C := (le_max_left _ _).trans (le_max_left _ _)
  have hCB : B ≤ C := (le_max_right _ _).trans (le_max_left _ _)
  have hCR : R0 ≤ C := (le_max_right _ _).trans (le_max_right _ _)
  intro ρ sys g hacc hev hclose t0 dt n X s t' hdt hdt1 hn hgrid htimes hstep hsmall
  have hu := hacc.nonneg
  have hu1 := hacc.le_one hC1
  have hdt0 : 0 < |dt| := abs_pos.2 hdt
  have hsum : 0 ≤ ‖X 0 - φ t0‖ + |dt| ^ p + ρ.u / |dt| := by positivity
  have hT : n * |dt| ≤ |T| := hn.trans (le_abs_self T)
  -- one step
  have one : ∀ k < n, ‖X k - φ (t0 + k * dt)‖ ≤ 1 →
      ‖X (k + 1) - φ (t0 + (k + 1 : ℕ) * dt)‖ ≤ (1 + L * |dt|) * ‖X k - φ (t0 + k * dt)‖ + M * |dt| ^ (p + 1) + B * ρ.u := by
    intro k hk hek
    have htk := hgrid k hk.le
    have htS : |t0 + k * dt| ≤ max |a| |b| := abs_le_max_abs_abs htk.1 htk.2
    have hx : ‖X k‖ ≤ P + 1 := by
      have : ‖X k‖ ≤ ‖X k - φ (t0 + k * dt)‖ + ‖φ (t0 + k * dt)‖ := by
        have := norm_add_le (X k - φ (t0 + k * dt)) (φ (t0 + k * dt))
        rwa [sub_add_cancel] at this
      linarith [hP _ htk]
    have hx0 : ‖X k‖ ≤ R0 := by
      have := le_max_left (P + 1) (max |a| |b|)
      linarith
    have ht0 : |t0 + k * dt| ≤ R0 := by
      have := le_max_right (P + 1) (max |a| |b|)
      linarith
    obtain ⟨hs1, hs2⟩ := htimes k hk.le
    have hcu : c * ρ.u ≤ c := by nlinarith
    have hs0 : |s k| ≤ R0 := by
      have h1 : |s k| ≤ |s k - (t0 + k * dt)| + |t0 + k * dt| := by
        have := abs_add_le (s k - (t0 + k * dt)) (t0 + k * dt)
        rwa [sub_add_cancel] at this
      have := le_max_right (P + 1) (max |a| |b|)
      linarith
    have hk1 : ‖g (X k) (s k) - f (X k) (t0 + k * dt)‖ ≤ R * ρ.u := by
      have h1 := hclose R0 hCR (X k) (s k) hx0 hs0
      have h2 := (hLip (X k) (X k) (s k) (t0 + k * dt) hx0 hx0 hs0 ht0).2
      rw [sub_self, norm_zero, max_eq_right (abs_nonneg _)] at h2
      have h3 : ‖g (X k) (s k) - f (X k) (t0 + k * dt)‖ ≤ ‖g (X k) (s k) - f (X k) (s k)‖ + ‖f (X k) (s k) - f (X k) (t0 + k * dt)‖ :=
        norm_sub_le_norm_sub_add_norm_sub _ _ _
      have h4 : L0 * |s k - (t0 + k * dt)| ≤ L0 * (c * ρ.u) := mul_le_mul_of_nonneg_left hs1 hL0
      have h5 : κ R0 * ρ.u ≤ |κ R0| * ρ.u := mul_le_mul_of_nonneg_right (le_abs_self _) hu
      have h6 : (|κ R0| + L0 * c) * ρ.u ≤ R * ρ.u := mul_le_mul_of_nonneg_right (le_max_right _ _) hu
      nlinarith
    have hcR : c ≤ R := by
      have h1 : 0 ≤ max (P + 1) (max |a| |b|) := le_max_of_le_right (le_max_of_le_left (abs_nonneg a))
      have : c ≤ R0 := by linarith
      exact this.trans (le_max_left _ _)
    have hgood : RoundedStep.Good f κ R ⟨ρ, sys, g, X k, g (X k) (s k), t' k, t0 + k * dt, dt⟩ B :=
      ⟨hacc.mono hCB hB, hev, fun r hr => hclose r (hr.trans hCB), hx0.trans (le_max_left _ _), ht0.trans (le_max_left _ _),
        hs2.trans (mul_le_mul_of_nonneg_right hcR hu), hdt1, hk1⟩
    have h1 := (HB _ hgood).2
    rw [← hstep k hk] at h1
    dsimp only at h1
    have h2 := hlip (X k) (φ (t0 + k * dt)) (t0 + k * dt) dt hdt1
    have h3 := hloc (t0 + k * dt) htk dt hdt1
    rw [show t0 + ((k + 1 : ℕ) : ℝ) * dt = t0 + k * dt + dt by push_cast; ring]
    have h4 : ‖X (k + 1) - φ (t0 + k * dt + dt)‖ ≤ ‖X (k + 1) - Φ (X k) (t0 + k * dt) dt‖ +
        (‖Φ (X k) (t0 + k * dt) dt - Φ (φ (t0 + k * dt)) (t0 + k * dt) dt‖ + ‖Φ (φ (t0 + k * dt)) (t0 + k * dt) dt - φ (t0 + k * dt + dt)‖) := by
      refine (le_of_eq ?_).trans ((norm_add_le _ _).trans (add_le_add le_rfl (norm_add_le _ _)))
      congr 1
      abel
    linarith
  intro k
  induction k using Nat.strong_induction_on with
  | _ k ih =>
    intro hk
    have hkT : k * |dt| ≤ |T| := (mul_le_mul_of_nonneg_right (by exact_mod_cast hk) (abs_nonneg dt)).trans hT
    have := rounded_growth (p := p) hL hM (by linarith : 0 ≤ B) (abs_nonneg T) hdt0 hu (norm_nonneg (X 0 - φ t0))
      (fun i : ℕ => ‖X i - φ (t0 + i * dt)‖) k hkT (fun _ _ => norm_nonneg _) (by simp)
      (fun i hi => one i (by omega) ((ih i hi (by omega)).trans hsmall))
    exact this.trans (mul_le_mul_of_nonneg_right hCC0 hsum)

end Verif
