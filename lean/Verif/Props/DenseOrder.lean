import Verif.Props.Order
import Verif.Props.DenseInterp

/-!
# C33: the order of the dense output of `runge_kutta_dopri5`
-/

set_option linter.unusedSectionVars false

namespace Verif
open Topology Asymptotics Finset BSeries Filter
variable {V W : Type} [NormedAddCommGroup V] [NormedSpace ℝ V] [CompleteSpace V]

/-- numerators of the coefficients of `θ^m`, `m = 1, ..., 5`, in the weights of the seven stages -/
def denseNum : ℕ → List ℤ
  | 1 => [1, 0, 0, 0, 0, 0, 0]
  | 2 => [-1496652633343, 0, 2117491033600, -2062040853600, 1486924147359, -842879842992, 797158148976]
  | 3 => [39077578771, 0, -79998336000, 137470989250, -95156472789, 53189505952, -54583265184]
  | 4 => [-4862935469525, 0, 11700845657600, -28166585209350, 20750944959675, -12348109862880, 12925839924480]
  | 5 => [2427191445, 0, -8374137600, 72815743350, -100155994155, 82514741760, -49227544800]
  | _ => []

def denseDen : ℕ → ℤ
  | 1 => 1
  | 2 => 523206572784
  | 3 => 12607387296
  | 4 => 4185652582272
  | 5 => 174402190928
  | _ => 1

noncomputable def denseBeta (m i : ℕ) : ℝ := ((denseNum m).getD i 0 : ℝ) / denseDen m

theorem denseBeta_conditions (m : ℕ) (hm : 1 ≤ m) (hm5 : m ≤ 5) (τ : PTree Unit) (hτ : τ.size ≤ 4) :
    ∑ i ∈ range 7, denseBeta m i * stageWeight (dopri5Tableau : Tableau ℝ).aij (fun _ => ()) τ i =
      if τ.size = m then exactWeight τ / (τ.size : ℝ) else 0 := by
  have hc : checkConditions dopri5Rows [List.replicate 7 1] (denseNum m) 17136282240 (denseDen m) (fun s => if s = m then 1 else 0) 4 = true := by
    interval_cases m <;> decide +kernel
  have h0 : denseDen m ≠ 0 := by interval_cases m <;> decide
  have h := dopri5_table.conditions (b := denseNum m) (br := denseBeta m) (Db := denseDen m) (by interval_cases m <;> rfl)
    (fun i hi => by
      have : ((denseDen m : ℤ) : ℝ) ≠ 0 := by exact_mod_cast h0
      unfold denseBeta
      field_simp) h0 hc τ hτ
  rw [show (dopri5Tableau : Tableau ℝ).size = 7 from rfl] at h
  rw [h]
  split <;> simp

theorem dopri5DenseB_beta (θ : ℝ) : dopri5DenseB θ =
    [∑ m ∈ range 5, denseBeta (m + 1) 0 * θ ^ (m + 1), ∑ m ∈ range 5, denseBeta (m + 1) 2 * θ ^ (m + 1),
     ∑ m ∈ range 5, denseBeta (m + 1) 3 * θ ^ (m + 1), ∑ m ∈ range 5, denseBeta (m + 1) 4 * θ ^ (m + 1),
     ∑ m ∈ range 5, denseBeta (m + 1) 5 * θ ^ (m + 1), ∑ m ∈ range 5, denseBeta (m + 1) 6 * θ ^ (m + 1)] := by
  rw [dopri5DenseB_hermite]
  simp only [hermite, denseBeta, denseNum, denseDen, Finset.sum_range_succ, Finset.sum_range_zero, List.getD_cons_zero, List.getD_cons_succ,
    List.cons.injEq, and_true]
  push_cast
  refine ⟨by ring, by ring, by ring, by ring, by ring, by ring⟩

theorem denseBeta_second (m : ℕ) : denseBeta m 1 = 0 := by
  unfold denseBeta
  match m with
  | 0 => simp [denseNum]
  | 1 => simp [denseNum]
  | 2 => simp [denseNum]
  | 3 => simp [denseNum]
  | 4 => simp [denseNum]
  | 5 => simp [denseNum]
  | m + 6 => simp [denseNum]

/-- the interpolant in terms of the stages -/
theorem dopri5Interpolant_stages (f : V → ℝ → V) (x0 : V) (t0 h θ : ℝ) (hh : h ≠ 0) (s : LastStep ℝ V) (y : V) (hx : s.xOld = x0) (ht : s.tOld = t0)
    (hk : s.kOld = f x0 t0) (hr : (⟨s.k3, s.k4, s.k5, s.k6, y, s.k7⟩ : Dopri5Result V) = dopri5Fun f x0 (f x0 t0) t0 h) :
    dopri5Interpolant s (t0 + h) (t0 + θ * h) = x0 + ∑ m ∈ range 5, θ ^ (m + 1) •
      (h • ∑ i ∈ range 7, denseBeta (m + 1) i • dopri5Tableau.stageFn f x0 t0 h i) := by
  rw [dopri5Fun_stages] at hr
  injection hr with e3 e4 e5 e6 _ e7
  have h0 : dopri5Tableau.stageFn f x0 t0 h 0 = f x0 t0 := by
    rw [dopri5Tableau.stageFn_isStages f x0 t0 h 0 (by decide)]
    simp [Tableau.stagePoint, Tableau.stageTime, Tableau.ci, dopri5Tableau, lit]
  rw [← h0] at hk
  unfold dopri5Interpolant
  rw [hx, ht, hk, e3, e4, e5, e6, e7]
  have eθ : (t0 + θ * h - t0) / (t0 + h - t0) = θ := by
    rw [add_sub_cancel_left, add_sub_cancel_left, mul_div_assoc, div_self hh, mul_one]
  rw [eθ, dopri5DenseB_beta]
  simp only [lin, List.map, List.zip, List.zipWith, List.sum_cons, List.sum_nil, lit, Int.cast_one, one_smul, add_zero, add_sub_cancel_left]
  congr 1
  generalize dopri5Tableau.stageFn f x0 t0 h = k
  simp only [Finset.sum_range_succ _ 6, Finset.sum_range_succ _ 5, Finset.sum_range_succ _ 4, Finset.sum_range_succ _ 3, Finset.sum_range_succ _ 2,
    Finset.sum_range_succ _ 1, Finset.sum_range_succ _ 0, Finset.sum_range_zero, denseBeta_second, zero_smul, zero_add, add_zero]
  module

/-- The continuous extension of the Dormand-Prince method as a function of the stages. -/
noncomputable def dopri5Extension (f : V → ℝ → V) (x : V) (t h θ : ℝ) : V :=
  x + ∑ m ∈ range 5, θ ^ (m + 1) • (h • ∑ i ∈ range 7, denseBeta (m + 1) i • dopri5Tableau.stageFn f x t h i)

theorem dopri5Extension_order {f : V → ℝ → V} {x0 : V} {t0 : ℝ} {φ : ℝ → V} (hf : SmoothAt f 4 x0 t0) (hφ : IsSolution f x0 t0 φ) :
    ∃ C ε : ℝ, 0 < ε ∧ ∀ dt : ℝ, |dt| < ε → ∀ θ : ℝ, 0 ≤ θ → θ ≤ 1 →
      ‖dopri5Extension f x0 t0 dt θ - φ (t0 + θ * dt)‖ ≤ C * |dt| ^ 5 := by
  have hf' : ContDiffAt ℝ (((3 : ℕ) : WithTop ℕ∞) + 1) (fun z : V × ℝ => f z.1 z.2) (x0, t0) := by exact_mod_cast hf
  set c : ℕ → V := fun s => match s with
      | 0 => 0
      | s + 1 => tsum s fun τ => (exactWeight τ / (τ.size : ℝ)) • elementary f x0 t0 τ with hc
  have h2 : Exp (fun h => φ (t0 + h) - x0) c (3 + 1) := solution_expand hf' hφ.start hφ.deriv
  have h1 : ∀ m, m < 5 → (fun h : ℝ => (h • ∑ i ∈ range 7, denseBeta (m + 1) i • dopri5Tableau.stageFn f x0 t0 h i) -
      (if m < 4 then h ^ (m + 1) • c (m + 1) else 0)) =O[𝓝 0] fun h : ℝ => h ^ 5 := by
    intro m hm
    have := rk_expand (A := (dopri5Tableau : Tableau ℝ).aij) (c := (dopri5Tableau : Tableau ℝ).ci) (n := 7) dopri5_nodes hf'
      (k := fun i h => dopri5Tableau.stageFn f x0 t0 h i) (fun i hi h => dopri5Tableau.stageFn_isStages f x0 t0 h i hi) (denseBeta (m + 1))
    have e : Exp (fun h => h • ∑ i ∈ range 7, denseBeta (m + 1) i • dopri5Tableau.stageFn f x0 t0 h i)
        (fun s => if s = m + 1 then c s else 0) (3 + 1) := by
      refine this.congr (fun h => rfl) fun s hs => ?_
      cases s with
      | zero => simp
      | succ s =>
        simp only [hc]
        split
        · rename_i h
          refine tsum_congr s fun τ hτ => ?_
          rw [denseBeta_conditions (m + 1) (by omega) (by omega) τ (by omega), if_pos (by omega)]
        · rename_i h
          refine (tsum_congr s fun τ hτ => ?_).trans (tsum_zero_fun s)
          rw [denseBeta_conditions (m + 1) (by omega) (by omega) τ (by omega), if_neg (by omega), zero_smul]
    unfold Exp at e
    refine e.congr_left fun h => ?_
    congr 1
    simp only [smul_ite, smul_zero, Finset.sum_ite_eq', Finset.mem_range]
    split <;> split <;> first | rfl | omega
  -- all constants
  have hall : ∀ᶠ C in atTop, ∀ᶠ h in 𝓝 (0 : ℝ), (‖φ (t0 + h) - x0 - ∑ s ∈ range 5, h ^ s • c s‖ ≤ C * ‖h ^ 5‖) ∧
      ∀ m ∈ range 5, ‖(h • ∑ i ∈ range 7, denseBeta (m + 1) i • dopri5Tableau.stageFn f x0 t0 h i) -
        (if m < 4 then h ^ (m + 1) • c (m + 1) else 0)‖ ≤ C * ‖h ^ 5‖ := by
    have a1 : ∀ᶠ C in atTop, ∀ᶠ h in 𝓝 (0 : ℝ), ‖φ (t0 + h) - x0 - ∑ s ∈ range 5, h ^ s • c s‖ ≤ C * ‖h ^ 5‖ :=
      (isBigO_iff_eventually_isBigOWith.1 h2).mono fun C hC => isBigOWith_iff.1 hC
    have a2 : ∀ m ∈ range 5, ∀ᶠ C in atTop, ∀ᶠ h in 𝓝 (0 : ℝ),
        ‖(h • ∑ i ∈ range 7, denseBeta (m + 1) i • dopri5Tableau.stageFn f x0 t0 h i) -
        (if m < 4 then h ^ (m + 1) • c (m + 1) else 0)‖ ≤ C * ‖h ^ 5‖ := fun m hm =>
      (isBigO_iff_eventually_isBigOWith.1 (h1 m (Finset.mem_range.1 hm))).mono fun C hC => isBigOWith_iff.1 hC
    filter_upwards [a1, (Filter.eventually_all_finset (range 5)).2 a2] with C h3 h4
    exact h3.and ((Filter.eventually_all_finset (range 5)).2 h4)
  obtain ⟨C, hC, hC0⟩ := (hall.and (eventually_ge_atTop 0)).exists
  obtain ⟨ε, hε, hball⟩ := Metric.eventually_nhds_iff_ball.1 hC
  refine ⟨6 * C, ε, hε, fun dt hlt θ hθ0 hθ1 => ?_⟩
  unfold dopri5Extension
  have b1 := (hball dt (by simpa using hlt)).2
  have habs : |θ * dt| ≤ |dt| := by
    rw [abs_mul, abs_of_nonneg hθ0]
    exact mul_le_of_le_one_left (abs_nonneg _) hθ1
  have b2 := (hball (θ * dt) (by simpa using lt_of_le_of_lt habs hlt)).1
  have e : x0 + ∑ m ∈ range 5, θ ^ (m + 1) • (dt • ∑ i ∈ range 7, denseBeta (m + 1) i • dopri5Tableau.stageFn f x0 t0 dt i) - φ (t0 + θ * dt) =
      ∑ m ∈ range 5, θ ^ (m + 1) • ((dt • ∑ i ∈ range 7, denseBeta (m + 1) i • dopri5Tableau.stageFn f x0 t0 dt i) -
        (if m < 4 then dt ^ (m + 1) • c (m + 1) else 0)) - (φ (t0 + θ * dt) - x0 - ∑ s ∈ range 5, (θ * dt) ^ s • c s) := by
    have e1 : ∑ s ∈ range 5, (θ * dt) ^ s • c s = ∑ m ∈ range 5, θ ^ (m + 1) • (if m < 4 then dt ^ (m + 1) • c (m + 1) else 0) := by
      rw [Finset.sum_range_succ', Finset.sum_range_succ _ 4, if_neg (by omega), show c 0 = 0 from rfl, smul_zero, smul_zero, add_zero,
        add_zero]
      refine Finset.sum_congr rfl fun m hm => ?_
      rw [if_pos (Finset.mem_range.1 hm), mul_pow, smul_smul]
    rw [e1]
    simp only [smul_sub, Finset.sum_sub_distrib]
    abel
  rw [e]
  have n1 : ∀ m ∈ range 5, ‖θ ^ (m + 1) • ((dt • ∑ i ∈ range 7, denseBeta (m + 1) i • dopri5Tableau.stageFn f x0 t0 dt i) -
        (if m < 4 then dt ^ (m + 1) • c (m + 1) else 0))‖ ≤ C * |dt| ^ 5 := by
    intro m hm
    rw [norm_smul, norm_pow, Real.norm_eq_abs, abs_of_nonneg hθ0]
    have := b1 m hm
    rw [norm_pow, Real.norm_eq_abs] at this
    exact (mul_le_of_le_one_left (norm_nonneg _) (pow_le_one₀ hθ0 hθ1)).trans this
  have n2 : ‖φ (t0 + θ * dt) - x0 - ∑ s ∈ range 5, (θ * dt) ^ s • c s‖ ≤ C * |dt| ^ 5 := by
    refine b2.trans ?_
    rw [norm_pow, Real.norm_eq_abs]
    exact mul_le_mul_of_nonneg_left (pow_le_pow_left₀ (abs_nonneg _) habs 5) hC0
  refine (norm_sub_le _ _).trans ?_
  have n3 := norm_sum_le_of_le (range 5) n1
  rw [Finset.sum_const, Finset.card_range, nsmul_eq_mul] at n3
  push_cast at n3
  linarith

/-- **C33.**  The dense output of `runge_kutta_dopri5` has order 4, uniformly over the step: for a right-hand side that is four times
continuously differentiable and a solution `φ` through the previous state, every value `calc_state` returns in the last step differs from
the solution at that time by at most `C |h|^5`, where `h` is the size of the last step. -/
theorem dopri5_dense_order {f : V → ℝ → V} {x0 : V} {t0 : ℝ} {φ : ℝ → V} (hf : SmoothAt f 4 x0 t0) (hφ : IsSolution f x0 t0 φ) :
    ∃ C ε : ℝ, 0 < ε ∧ ∀ (P : CtrlParams ℝ V) (a : DopriDense ℝ V W) (s : LastStep ℝ V), a.LastValid P f → a.last = some s →
      s.xOld = x0 → s.tOld = t0 → a.t ≠ t0 → |a.t - t0| < ε → ∀ θ : ℝ, 0 ≤ θ → θ ≤ 1 →
      ‖dopri5Interpolant s a.t (t0 + θ * (a.t - t0)) - φ (t0 + θ * (a.t - t0))‖ ≤ C * |a.t - t0| ^ 5 := by
  obtain ⟨C, ε, hε, key⟩ := dopri5Extension_order hf hφ
  refine ⟨C, ε, hε, fun P a s hl hs hx ht hne hlt θ hθ0 hθ1 => ?_⟩
  obtain ⟨dt, d1, d2, -, d4⟩ := hl s hs
  obtain ⟨h, hh⟩ : ∃ h, a.t = t0 + h := ⟨a.t - t0, by ring⟩
  have hdt : dt = h := by rw [d1, ht] at hh; linarith
  subst hdt
  rw [hx, ht] at d2 d4
  rw [d2] at d4
  have hh0 : dt ≠ 0 := fun h => hne (by rw [hh, h, add_zero])
  rw [hh, add_sub_cancel_left] at hlt ⊢
  rw [dopri5Interpolant_stages f x0 t0 dt θ hh0 s a.x hx ht d2 d4]
  exact key dt hlt θ hθ0 hθ1

/-- The hypotheses are met after every accepted step; here with a checker that accepts every step of `x' = x²` from `x(0) = 1`. -/
example (P : CtrlParams ℝ ℝ) (hP : ∀ e, P.gtOne e = false) (h : ℝ) (hl : P.adjuster.checkStepSizeLimit h = true) :
    ∃ (a : DopriDense ℝ ℝ ℕ) (s : LastStep ℝ ℝ), a.LastValid P (fun x _ => x ^ 2) ∧ a.last = some s ∧ s.xOld = 1 ∧ s.tOld = 0 ∧ a.t = h := by
  set r := dopri5Fun (fun (x : ℝ) (_ : ℝ) => x ^ 2) 1 1 0 h with hr
  refine ⟨⟨r.x, h, h, some r.k7, some ⟨1, 0, 1, r.k3, r.k4, r.k5, r.k6, r.k7⟩, fun _ => 0, 0⟩, ⟨1, 0, 1, r.k3, r.k4, r.k5, r.k6, r.k7⟩, ?_, rfl, rfl, rfl, rfl⟩
  intro s hs
  obtain rfl := Option.some.inj hs
  exact ⟨h, (zero_add h).symm, (one_pow 2).symm, ⟨hl, hP _⟩, rfl⟩

example : ∃ C ε : ℝ, 0 < ε ∧ ∀ (P : CtrlParams ℝ ℝ) (a : DopriDense ℝ ℝ ℕ) (s : LastStep ℝ ℝ), a.LastValid P (fun x _ => x ^ 2) → a.last = some s →
      s.xOld = 1 → s.tOld = 0 → a.t ≠ 0 → |a.t - 0| < ε → ∀ θ : ℝ, 0 ≤ θ → θ ≤ 1 →
      ‖dopri5Interpolant s a.t (0 + θ * (a.t - 0)) - 1 / (1 - (0 + θ * (a.t - 0)))‖ ≤ C * |a.t - 0| ^ 5 :=
  dopri5_dense_order (riccati_smooth 4) riccati_solution

end Verif
