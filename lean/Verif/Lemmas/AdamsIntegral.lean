import Verif.Spec.AdamsPece
import Mathlib.Analysis.SpecialFunctions.Integrals.Basic
import Mathlib.Topology.Algebra.Polynomial
import Mathlib.Tactic.FieldSimp
import Mathlib.Tactic.Linarith
import Mathlib.Tactic.Ring
import Mathlib.Tactic.Module

/-!
# The integrals behind the coefficients of Adams methods
-/

namespace Verif
open Polynomial Finset

/-- `∏_{j<i} (s - τ_j)` -/
noncomputable def newton (τ : ℕ → ℝ) (i : ℕ) (s : ℝ) : ℝ := ∏ j ∈ range i, (s - τ j)

theorem newton_zero (τ : ℕ → ℝ) (s : ℝ) : newton τ 0 s = 1 := by simp [newton]

theorem newton_succ (τ : ℕ → ℝ) (i : ℕ) (s : ℝ) : newton τ (i + 1) s = newton τ i s * (s - τ i) := by
  simp [newton, prod_range_succ]

theorem newton_node (τ : ℕ → ℝ) {i j : ℕ} (h : j < i) : newton τ i (τ j) = 0 := by
  unfold newton
  exact prod_eq_zero (mem_range.2 h) (sub_self _)

theorem newton_ne (τ : ℕ → ℝ) (i : ℕ) {s : ℝ} (h : ∀ j < i, s ≠ τ j) : newton τ i s ≠ 0 := by
  unfold newton
  exact prod_ne_zero_iff.2 fun j hj => sub_ne_zero.2 (h j (mem_range.1 hj))

theorem newton_push (a : ℝ) (τ : ℕ → ℝ) (i : ℕ) (s : ℝ) : newton (push a τ) (i + 1) s = (s - a) * newton τ i s := by
  induction i with
  | zero => simp [newton, push]
  | succ i ih => rw [newton_succ, ih, newton_succ]; show _ * (s - τ i) = _; ring

theorem newton_eval (τ : ℕ → ℝ) (i : ℕ) (s : ℝ) : newton τ i s = (Lagrange.nodal (range i) τ).eval s := by
  rw [Lagrange.eval_nodal]; rfl

theorem newton_continuous (τ : ℕ → ℝ) (i : ℕ) : Continuous (newton τ i) := by
  have : newton τ i = fun s => (Lagrange.nodal (range i) τ).eval s := funext (newton_eval τ i)
  rw [this]
  exact (Lagrange.nodal (range i) τ).continuous

/-- `c_{i,q}` -/
noncomputable def adamsC (τ : ℕ → ℝ) (t h : ℝ) (i q : ℕ) : ℝ :=
  ∫ s in (0 : ℝ)..1, newton τ i (t + s * h) / newton τ i (t + h) * (1 - s) ^ q

theorem adamsC_integrable (τ : ℕ → ℝ) (t h : ℝ) (i q : ℕ) :
    IntervalIntegrable (fun s : ℝ => newton τ i (t + s * h) / newton τ i (t + h) * (1 - s) ^ q) MeasureTheory.volume 0 1 := by
  apply Continuous.intervalIntegrable
  have := newton_continuous τ i
  exact ((this.comp (by fun_prop)).div_const _).mul (by fun_prop)

theorem adamsC_succ (τ : ℕ → ℝ) (t h : ℝ) (i q : ℕ) (hne : t + h - τ i ≠ 0) :
    adamsC τ t h (i + 1) q = adamsC τ t h i q - adamsC τ t h i (q + 1) * h / (t + h - τ i) := by
  have e : ∀ s : ℝ, newton τ (i + 1) (t + s * h) / newton τ (i + 1) (t + h) * (1 - s) ^ q =
      newton τ i (t + s * h) / newton τ i (t + h) * (1 - s) ^ q -
        newton τ i (t + s * h) / newton τ i (t + h) * (1 - s) ^ (q + 1) * (h / (t + h - τ i)) := by
    intro s
    rw [newton_succ, newton_succ, mul_div_mul_comm]
    have : (t + s * h - τ i) / (t + h - τ i) = 1 - (1 - s) * (h / (t + h - τ i)) := by field_simp; ring
    rw [this]
    ring
  unfold adamsC
  simp only [e]
  rw [intervalIntegral.integral_sub (adamsC_integrable τ t h i q) ((adamsC_integrable τ t h i (q + 1)).mul_const _),
    intervalIntegral.integral_mul_const]
  ring

theorem adamsC_zero (τ : ℕ → ℝ) (t h : ℝ) (q : ℕ) : adamsC τ t h 0 q = 1 / (q + 1) := by
  unfold adamsC
  simp only [newton_zero, div_one, one_mul]
  rw [intervalIntegral.integral_comp_sub_left (fun s : ℝ => s ^ q) 1]
  simp

theorem adamsC_one (τ : ℕ → ℝ) (t h : ℝ) (q : ℕ) (h0 : τ 0 = t) (hh : h ≠ 0) : adamsC τ t h 1 q = 1 / ((q + 1) * (q + 2)) := by
  have hne : t + h - τ 0 ≠ 0 := by rw [h0]; simpa using hh
  rw [adamsC_succ τ t h 0 q hne, adamsC_zero, adamsC_zero, h0]
  have h1 : (q : ℝ) + 1 ≠ 0 := by positivity
  have h2 : (q : ℝ) + 2 ≠ 0 := by positivity
  have h3 : ((q + 1 : ℕ) : ℝ) + 1 ≠ 0 := by positivity
  push_cast at *
  have : t + h - t = h := by ring
  rw [this]
  field_simp
  ring

/-- `dt g_i` times the value at the end is the integral of the Newton polynomial -/
theorem adamsC_integral (τ : ℕ → ℝ) (t h : ℝ) (i : ℕ) (hne : newton τ i (t + h) ≠ 0) :
    h * adamsC τ t h i 0 * newton τ i (t + h) = ∫ s in t..(t + h), newton τ i s := by
  unfold adamsC
  simp only [pow_zero, mul_one]
  rw [intervalIntegral.integral_div]
  have : h * ((∫ s in (0 : ℝ)..1, newton τ i (t + s * h)) / newton τ i (t + h)) * newton τ i (t + h) =
      h * ∫ s in (0 : ℝ)..1, newton τ i (t + s * h) := by field_simp
  rw [this]
  have e : (fun s : ℝ => newton τ i (t + s * h)) = fun s : ℝ => newton τ i (t + h * s) := by funext s; rw [mul_comm]
  rw [e, intervalIntegral.mul_integral_comp_add_mul]
  simp

variable {V : Type} [AddCommGroup V] [Module ℝ V]

/-- A combination of polynomials with coefficients in `V` that interpolates the points has the integral of the Lagrange form. -/
theorem lagrange_integral (k : ℕ) (τ : ℕ → ℝ) (F : ℕ → V) (a b : ℝ) (hinj : Set.InjOn τ (range k)) (n : ℕ) (P : ℕ → ℝ[X]) (A : ℕ → V)
    (hdeg : ∀ i < n, (P i).degree < k) (hval : ∀ j < k, ∑ i ∈ range n, (P i).eval (τ j) • A i = F j) :
    ∑ i ∈ range n, (∫ s in a..b, (P i).eval s) • A i = ∑ j ∈ range k, adamsWeight k τ a b j • F j := by
  have e : ∀ i < n, (∫ s in a..b, (P i).eval s) = ∑ j ∈ range k, (P i).eval (τ j) * adamsWeight k τ a b j := by
    intro i hi
    have hp := Lagrange.eq_interpolate (f := P i) hinj (by rw [card_range]; exact hdeg i hi)
    have hs : ∀ s, (P i).eval s = ∑ j ∈ range k, (P i).eval (τ j) * (Lagrange.basis (range k) τ j).eval s := by
      intro s
      conv_lhs => rw [hp, Lagrange.interpolate_apply]
      simp [eval_finsetSum]
    rw [intervalIntegral.integral_congr (fun s _ => hs s), intervalIntegral.integral_finsetSum]
    · refine sum_congr rfl fun j _ => ?_
      rw [intervalIntegral.integral_const_mul]
      rfl
    · intro j _
      exact (continuous_const.mul (Lagrange.basis (range k) τ j).continuous).intervalIntegrable _ _
  calc ∑ i ∈ range n, (∫ s in a..b, (P i).eval s) • A i
      = ∑ i ∈ range n, ∑ j ∈ range k, ((P i).eval (τ j) * adamsWeight k τ a b j) • A i := by
        refine sum_congr rfl fun i hi => ?_
        rw [e i (mem_range.1 hi), sum_smul]
    _ = ∑ j ∈ range k, adamsWeight k τ a b j • ∑ i ∈ range n, (P i).eval (τ j) • A i := by
        rw [sum_comm]
        refine sum_congr rfl fun j _ => ?_
        rw [smul_sum]
        refine sum_congr rfl fun i _ => ?_
        rw [smul_smul, mul_comm]
    _ = _ := sum_congr rfl fun j hj => by rw [hval j (mem_range.1 hj)]

end Verif
