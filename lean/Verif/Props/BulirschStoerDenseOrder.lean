import Verif.Props.BulirschStoerPoly
import Verif.Props.ExtrapolationOrder

/-!
# C59: the order of the steps of `bulirsch_stoer_dense_out`
-/

set_option linter.unusedSectionVars false

namespace Verif
open Topology Asymptotics Finset BSeries
variable {V W : Type} [NormedAddCommGroup V] [NormedSpace ℝ V] [CompleteSpace V]

/-- The entry `d`, `k` of the extrapolation tableau of Gragg's scheme with interval counts `2 r i` has order `2 d + 2`, for any sequence `r` of different positive
numbers; the weights may be any with which the tableau is the interpolation polynomial at zero. -/
theorem neville_gragg_order_nodes {d k : ℕ} (hd : d ≤ k) (r : ℕ → ℕ) (hr : ∀ i, 1 ≤ r i) (hinj : Function.Injective r) (c : ℕ → ℕ → ℝ)
    (hc : ∀ y : ℕ → ℝ, neville c y d k = neville (nodeCoeff fun i => 1 / ((2 * r i : ℕ) : ℝ) ^ 2) y d k)
    {f : V → ℝ → V} {x0 : V} {t0 : ℝ} {φ : ℝ → V} (hf : SmoothAt f (2 * d + 2) x0 t0) (hφ : IsSolution f x0 t0 φ) :
    LocalOrder (2 * d + 2) (fun h => neville c (fun i => graggValue f (2 * r i) x0 t0 h) d k) t0 φ := by
  have hf' : ContDiffAt ℝ (((2 * d + 1 : ℕ) : WithTop ℕ∞) + 1) (fun z : V × ℝ => f z.1 z.2) (x0, t0) := by exact_mod_cast hf
  have hi : ∀ i, 1 ≤ 2 * r i := fun i => by have := hr i; omega
  have hnode : Set.InjOn (fun i => 1 / ((2 * r i : ℕ) : ℝ) ^ 2) (Finset.Icc (k - d) k) := by
    intro i _ j _ hij
    have hi' : (0 : ℝ) < ((2 * r i : ℕ) : ℝ) := by exact_mod_cast hi i
    have hj' : (0 : ℝ) < ((2 * r j : ℕ) : ℝ) := by exact_mod_cast hi j
    have h1 : ((2 * r i : ℕ) : ℝ) ^ 2 = ((2 * r j : ℕ) : ℝ) ^ 2 := by
      have : (1 / ((2 * r i : ℕ) : ℝ) ^ 2) = 1 / ((2 * r j : ℕ) : ℝ) ^ 2 := hij
      rw [div_eq_div_iff (by positivity) (by positivity)] at this
      linarith
    have h2 : ((2 * r i : ℕ) : ℝ) = ((2 * r j : ℕ) : ℝ) := by
      rcases sq_eq_sq_iff_eq_or_eq_neg.mp h1 with h | h
      · exact h
      · linarith
    have h3 : 2 * r i = 2 * r j := by exact_mod_cast h2
    exact hinj (by omega)
  have h1 : ∀ i, Exp (fun h => graggValue f (2 * r i) x0 t0 h - x0) (fun s => match s with
      | 0 => 0
      | s + 1 => tsum s fun τ => (∑ j ∈ range (2 * r i + 1), graggB (2 * r i) j *
          stageWeight (fun i' j => alpha i' j / ((2 * r i : ℕ) : ℝ)) (fun _ => ()) τ j) • elementary f x0 t0 τ) (2 * d + 1 + 1) := by
    intro i
    have := rk_expand (A := fun i' j => alpha i' j / ((2 * r i : ℕ) : ℝ)) (c := fun i' => (i' : ℝ) / ((2 * r i : ℕ) : ℝ)) (n := 2 * r i + 1)
      (fun i' _ => by rw [← Finset.sum_div, alpha_sum]) hf' (k := fun i' h => graggStage f x0 t0 (h / ((2 * r i : ℕ) : ℝ)) i')
      (fun i' _ h => graggStage_rk f (2 * r i) (hi i) x0 t0 h i') (graggB (2 * r i))
    refine this.congr (fun h => ?_) fun s _ => rfl
    rw [graggValue_rk f _ (hi i)]
    abel
  have h2 := solution_expand hf' hφ.start hφ.deriv
  have h3 := Exp_neville c h1 d k
  unfold LocalOrder
  refine (h3.sub h2 fun s hs => ?_).congr_left fun h => ?_
  · cases s with
    | zero => exact neville_zero _ d k
    | succ s =>
      simp only []
      rw [tsum_neville]
      refine tsum_congr s fun τ hτ => ?_
      rw [neville_smul]
      congr 1
      obtain ⟨R, r1, r2, r3⟩ := gragg_weight_poly τ
      have e : (fun i => ∑ j ∈ range (2 * r i + 1), graggB (2 * r i) j *
          stageWeight (fun i' j => alpha i' j / ((2 * r i : ℕ) : ℝ)) (fun _ => ()) τ j) = fun i => R.eval (1 / ((2 * r i : ℕ) : ℝ) ^ 2) := by
        funext i
        exact r3 (r i) (hr i)
      rw [e, hc, neville_poly (fun i => 1 / ((2 * r i : ℕ) : ℝ) ^ 2) R d k hd (r1.trans (by omega)) hnode, r2]
  · have e : (fun i => graggValue f (2 * r i) x0 t0 h) = fun i => (graggValue f (2 * r i) x0 t0 h - x0) + (1 : ℝ) • x0 := by
      funext i; rw [one_smul]; abel
    show _ = neville _ (fun i => graggValue f (2 * r i) x0 t0 h) d k - φ (t0 + h)
    rw [e, neville_add, neville_smul]
    have e1 : neville c (fun _ => (1 : ℝ)) d k = 1 := by
      rw [hc]
      have := neville_poly (fun i => 1 / ((2 * r i : ℕ) : ℝ) ^ 2) (1 : Polynomial ℝ) d k hd (by simp) hnode
      simpa using this
    rw [e1, one_smul]
    abel

theorem denseWeight_node (i k : ℕ) (hne : i ≠ k) :
    denseWeight (K := ℝ) i k = nodeCoeff (fun i => 1 / ((2 * (2 * i + 1) : ℕ) : ℝ) ^ 2) i k := by
  have h1 : (0 : ℝ) < ((2 * (2 * i + 1) : ℕ) : ℝ) := by positivity
  have h2 : (0 : ℝ) < ((2 * (2 * k + 1) : ℕ) : ℝ) := by positivity
  have h3 : ((2 * (2 * i + 1) : ℕ) : ℝ) ^ 2 - ((2 * (2 * k + 1) : ℕ) : ℝ) ^ 2 ≠ 0 := by
    intro h
    have h' : ((2 * (2 * i + 1) : ℕ) : ℝ) ^ 2 = ((2 * (2 * k + 1) : ℕ) : ℝ) ^ 2 := by linarith
    have : 2 * (2 * i + 1) = 2 * (2 * k + 1) := by
      have := (pow_left_inj₀ h1.le h2.le (by norm_num : (2 : ℕ) ≠ 0)).mp h'
      exact_mod_cast this
    omega
  have e1 : (lit ((2 + 4 * i : ℕ) : ℤ) : ℝ) = ((2 * (2 * i + 1) : ℕ) : ℝ) := by simp [lit]; ring
  have e2 : (lit ((2 + 4 * k : ℕ) : ℤ) : ℝ) = ((2 * (2 * k + 1) : ℕ) : ℝ) := by simp [lit]; ring
  unfold denseWeight nodeCoeff
  dsimp only
  rw [e1, e2, show (lit 1 : ℝ) = 1 by simp [lit]]
  generalize ((2 * (2 * i + 1) : ℕ) : ℝ) = a at *
  generalize ((2 * (2 * k + 1) : ℕ) : ℝ) = b at *
  have h4 : a / b * (a / b) - 1 ≠ 0 := by
    intro h
    apply h3
    field_simp at h
    nlinarith
  have h5 : 1 / b ^ 2 - 1 / a ^ 2 ≠ 0 := by
    intro h
    apply h3
    field_simp at h
    linarith
  rw [div_eq_div_iff h4 h5]
  field_simp

theorem neville_denseWeight (y : ℕ → ℝ) : ∀ d k, d ≤ k →
    neville (denseWeight (K := ℝ)) y d k = neville (nodeCoeff fun i => 1 / ((2 * (2 * i + 1) : ℕ) : ℝ) ^ 2) y d k := by
  intro d
  induction d with
  | zero => intro k _; rfl
  | succ d ih =>
    intro k hk
    rw [neville, neville, ih k (by omega), ih (k - 1) (by omega), denseWeight_node _ _ (by omega)]

/-- the value of a step of size `h` with the sweeps `0 .. k` -/
noncomputable def bsdStepValue (f : V → ℝ → V) (k : ℕ) (x0 : V) (t0 h : ℝ) : V :=
  neville (denseWeight (K := ℝ)) (fun j => graggValue f (2 + 4 * j) x0 t0 h) k k

/-- C59, order: a step with the sweeps `0 .. k` has order `2k + 2`, for every `k`, every `2k + 2` times continuously differentiable right-hand side and the
solution through the initial value.  By `bulirsch_stoer_dense_do_step` every step that `do_step` makes is such a step, with `1 ≤ k ≤ 8`. -/
theorem bulirsch_stoer_dense_order (k : ℕ) {f : V → ℝ → V} {x0 : V} {t0 : ℝ} {φ : ℝ → V} (hf : SmoothAt f (2 * k + 2) x0 t0) (hφ : IsSolution f x0 t0 φ) :
    LocalOrder (2 * k + 2) (bsdStepValue f k x0 t0) t0 φ := by
  have := neville_gragg_order_nodes (d := k) (k := k) le_rfl (fun i => 2 * i + 1) (fun i => by omega) (fun i j h => by dsimp only at h; omega)
    (denseWeight (K := ℝ)) (fun y => neville_denseWeight y k k le_rfl) hf hφ
  have e : ∀ i, 2 * (2 * i + 1) = 2 + 4 * i := fun i => by ring
  simp only [e] at this
  exact this

/-- C59: the error estimate of a step with the sweeps `0 .. k` has order `2k`: it is `O( h^(2k+1) )`. -/
theorem bulirsch_stoer_dense_error_order (k : ℕ) (hk : 1 ≤ k) {f : V → ℝ → V} {x0 : V} {t0 : ℝ} {φ : ℝ → V} (hf : SmoothAt f (2 * k + 2) x0 t0)
    (hφ : IsSolution f x0 t0 φ) :
    (fun h => bsdStepValue f k x0 t0 h - neville (denseWeight (K := ℝ)) (fun j => graggValue f (2 + 4 * j) x0 t0 h) (k - 1) k) =O[𝓝 0]
      fun h : ℝ => h ^ (2 * k + 1) := by
  obtain ⟨n, rfl⟩ : ∃ n, k = n + 1 := ⟨k - 1, by omega⟩
  have h1 := bulirsch_stoer_dense_order (n + 1) hf hφ
  have h2 := neville_gragg_order_nodes (d := n) (k := n + 1) (by omega) (fun i => 2 * i + 1) (fun i => by omega) (fun i j h => by dsimp only at h; omega)
    (denseWeight (K := ℝ)) (fun y => neville_denseWeight y n (n + 1) (by omega)) (ContDiffAt.of_le hf (by exact_mod_cast (by omega : 2 * n + 2 ≤ 2 * (n + 1) + 2))) hφ
  have e : ∀ i, 2 * (2 * i + 1) = 2 + 4 * i := fun i => by ring
  simp only [e] at h2
  unfold LocalOrder at h1 h2
  have h3 : (fun h : ℝ => h ^ (2 * (n + 1) + 2 + 1)) =O[𝓝 0] fun h : ℝ => h ^ (2 * (n + 1) + 1) := by
    refine Asymptotics.IsBigO.of_bound 1 ?_
    filter_upwards [Metric.ball_mem_nhds (0 : ℝ) one_pos] with h hh
    rw [one_mul, norm_pow, norm_pow]
    exact pow_le_pow_of_le_one (norm_nonneg _) (by simpa using (mem_ball_zero_iff.mp hh).le) (by omega)
  have h4 := (h1.trans h3).sub h2
  refine h4.congr_left fun h => ?_
  simp

/-- Non-vacuity: `x' = x^2`, `x(0) = 1`, `k = 3`. -/
example : LocalOrder 8 (bsdStepValue (fun (x : ℝ) (_ : ℝ) => x ^ 2) 3 1 0) 0 fun t => 1 / (1 - t) :=
  bulirsch_stoer_dense_order 3 (riccati_smooth 8) riccati_solution

end Verif
