import Verif.Props.Order
import Verif.Lemmas.GraggWeights

/-!
# C55: the order of `extrapolation_stepper< Order >` for nonlinear systems, for every `Order`
-/

set_option linter.unusedSectionVars false

namespace Verif
open Topology Asymptotics Finset BSeries
variable {V W : Type} [NormedAddCommGroup V] [NormedSpace ℝ V] [CompleteSpace V]

theorem Exp_pair {y z : ℝ → V} {c d : ℕ → V} {n : ℕ} (h1 : Exp y c n) (h2 : Exp z d n) (a b : ℝ) :
    Exp (fun x => a • y x + b • z x) (fun s => a • c s + b • d s) n := by
  have := Exp.sum (univ : Finset Bool) (y := fun i => if i then y else z) (c := fun i => if i then c else d) (n := n)
    (fun i _ => by cases i <;> simp [h1, h2]) (fun i => if i then a else b)
  refine this.congr (fun x => by simp) fun s _ => by simp

theorem Exp_neville (cf : ℕ → ℕ → ℝ) {y : ℕ → ℝ → V} {c : ℕ → ℕ → V} {n : ℕ} (h : ∀ i, Exp (y i) (c i) n) : ∀ d k,
    Exp (fun x => neville cf (fun i => y i x) d k) (fun s => neville cf (fun i => c i s) d k) n := by
  intro d
  induction d with
  | zero => intro k; exact h k
  | succ d ih =>
    intro k
    simp only [neville, lin_pair]
    exact Exp_pair (ih k) (ih (k - 1)) _ _

theorem tsum_neville (cf : ℕ → ℕ → ℝ) (q : ℕ) (g : ℕ → PTree Unit → V) : ∀ d k,
    neville cf (fun i => tsum q (g i)) d k = tsum q fun τ => neville cf (fun i => g i τ) d k := by
  intro d
  induction d with
  | zero => intro k; rfl
  | succ d ih =>
    intro k
    simp only [neville, lin_pair, ih, tsum_smul]
    have := tsum_finset (univ : Finset Bool) q fun b τ => if b then (lit 1 + cf k (k - (d + 1))) • neville cf (fun i => g i τ) d k
      else (-cf k (k - (d + 1))) • neville cf (fun i => g i τ) d (k - 1)
    simpa using this.symm

/-- The entry `d`, `k` of the extrapolation tableau has order `2 d + 2`. -/
theorem neville_gragg_order {d k : ℕ} (hd : d ≤ k) {f : V → ℝ → V} {x0 : V} {t0 : ℝ} {φ : ℝ → V} (hf : SmoothAt f (2 * d + 2) x0 t0)
    (hφ : IsSolution f x0 t0 φ) :
    LocalOrder (2 * d + 2) (fun h => neville (exCoeff (K := ℝ)) (fun i => graggValue f (interval i) x0 t0 h) d k) t0 φ := by
  have hf' : ContDiffAt ℝ (((2 * d + 1 : ℕ) : WithTop ℕ∞) + 1) (fun z : V × ℝ => f z.1 z.2) (x0, t0) := by exact_mod_cast hf
  have hi : ∀ i, 1 ≤ interval i := fun i => by unfold interval; omega
  have h1 : ∀ i, Exp (fun h => graggValue f (interval i) x0 t0 h - x0) (fun s => match s with
      | 0 => 0
      | s + 1 => tsum s fun τ => (∑ j ∈ range (interval i + 1), graggB (interval i) j *
          stageWeight (fun i' j => alpha i' j / interval i) (fun _ => ()) τ j) • elementary f x0 t0 τ) (2 * d + 1 + 1) := by
    intro i
    have := rk_expand (A := fun i' j => alpha i' j / interval i) (c := fun i' => (i' : ℝ) / interval i) (n := interval i + 1)
      (fun i' _ => by rw [← Finset.sum_div, alpha_sum]) hf' (k := fun i' h => graggStage f x0 t0 (h / interval i) i')
      (fun i' _ h => graggStage_rk f (interval i) (hi i) x0 t0 h i') (graggB (interval i))
    refine this.congr (fun h => ?_) fun s _ => rfl
    rw [graggValue_rk f _ (hi i)]
    abel
  have h2 := solution_expand hf' hφ.start hφ.deriv
  have h3 := Exp_neville (exCoeff (K := ℝ)) h1 d k
  unfold LocalOrder
  refine (h3.sub h2 fun s hs => ?_).congr_left fun h => ?_
  · cases s with
    | zero => exact neville_zero _ d k
    | succ s =>
      simp only []
      rw [tsum_neville]
      refine tsum_congr s fun τ hτ => ?_
      rw [neville_smul]
      congr 1
      obtain ⟨R, r1, r2, r3⟩ := gragg_weight_poly τ
      have e : (fun i => ∑ j ∈ range (interval i + 1), graggB (interval i) j *
          stageWeight (fun i' j => alpha i' j / interval i) (fun _ => ()) τ j) = fun i => R.eval (1 / (interval i : ℝ) ^ 2) := by
        funext i
        exact r3 (i + 1) (by omega)
      rw [e, neville_exCoeff _ _ _ hd, neville_poly (fun i => 1 / (interval i : ℝ) ^ 2) R d k hd (r1.trans (by omega)) (interval_inj _), r2]
  · have e : (fun i => graggValue f (interval i) x0 t0 h) = fun i => (graggValue f (interval i) x0 t0 h - x0) + (1 : ℝ) • x0 := by
      funext i; rw [one_smul]; abel
    show _ = neville _ (fun i => graggValue f (interval i) x0 t0 h) d k - φ (t0 + h)
    rw [e, neville_add, neville_smul]
    have e1 : neville (exCoeff (K := ℝ)) (fun _ => (1 : ℝ)) d k = 1 := by
      rw [neville_exCoeff _ _ _ hd]
      have := neville_poly (fun i => 1 / (interval i : ℝ) ^ 2) (1 : Polynomial ℝ) d k hd (by simp) (interval_inj _)
      simpa using this
    rw [e1, one_smul]
    abel

theorem Evaluates.returns {V W : Type} [AddCommGroup V] [Module ℝ V] 
    {sys : Sys ℝ V W} {f : V → ℝ → V} (hs : Evaluates sys f) : Returns sys f := by
  intro x t w v w' h
  obtain ⟨w'', h'⟩ := hs x t w
  rw [h] at h'
  exact (Res.ok.inj h').1

theorem midpointResults_value {V W : Type} [AddCommGroup V] [Module ℝ V] 
    {sys : Sys ℝ V W} {f : V → ℝ → V} (hs : Evaluates sys f) (x : V) (t dt : ℝ) : ∀ n k ys w,
    ∃ w', midpointResults sys x (f x t) t dt n k ys w =
      .ok (fun i => if k ≤ i ∧ i < k + n then graggValue f (interval i) x t dt else ys i) w' := by
  intro n
  induction n with
  | zero =>
    intro k ys w
    refine ⟨w, ?_⟩
    rw [midpointResults, M.pure_apply]
    congr 1
    funext i
    rw [if_neg (by omega)]
  | succ n ih =>
    intro k ys w
    obtain ⟨w1, h1⟩ := midpointStep_value hs (interval k) (by unfold interval; omega) x t dt w
    obtain ⟨w2, h2⟩ := ih (k + 1) (Function.update ys k (graggValue f (interval k) x t dt)) w1
    refine ⟨w2, ?_⟩
    rw [midpointResults, M.bind_ok h1, h2]
    congr 1
    funext i
    by_cases hi : i = k
    · subst hi
      simp
    · rw [Function.update_of_ne hi]
      by_cases h : k + 1 ≤ i ∧ i < k + 1 + n
      · rw [if_pos h, if_pos (by omega)]
      · rw [if_neg h, if_neg (by omega)]

theorem extrapolationResults_value {V W : Type} [AddCommGroup V] [Module ℝ V] 
    {sys : Sys ℝ V W} {f : V → ℝ → V} (hs : Evaluates sys f) (kmax : ℕ) (x : V) (t dt : ℝ) (w : W) :
    ∃ ys w', extrapolationResults kmax sys x (f x t) t dt w = .ok ys w' ∧ ∀ i ≤ kmax, ys i = graggValue f (interval i) x t dt := by
  obtain ⟨w1, h1⟩ := midpointStep_value hs (interval 0) (by unfold interval; omega) x t dt w
  obtain ⟨w2, h2⟩ := midpointResults_value hs x t dt kmax 1 (fun _ => graggValue f (interval 0) x t dt) w1
  refine ⟨_, w2, (M.bind_ok h1 _).trans h2, fun i hi => ?_⟩
  rcases Nat.eq_zero_or_pos i with rfl | h
  · simp
  · rw [if_pos (by omega)]

/-- **C55.**  `extrapolation_stepper< Order >`, `Order = 2 kmax + 2` (out of place), has order `Order`: for every `Order` times continuously
differentiable right-hand side, every initial value and the solution through it, the result of one step of size `h` differs from the
solution by `O(h^(Order+1))`. -/
theorem extrapolation_order (kmax : ℕ) (hk : kmax < 32767) {sys : Sys ℝ V W} {f : V → ℝ → V} (hs : Evaluates sys f) {x0 : V} {t0 : ℝ}
    {φ : ℝ → V} (hf : SmoothAt f (2 * kmax + 2) x0 t0) (hφ : IsSolution f x0 t0 φ) (x out : ℕ) (hne : x ≠ out) : ∃ step : ℝ → V,
      StepsTo (fun _ => True) (fun h => doStep3 (extrapolationImpl kmax) sys (.user x) t0 (.user out) h) (.user x) x0 (.user out) step ∧
      LocalOrder (2 * kmax + 2) step t0 φ := by
  refine ⟨_, fun h heap _ hx => ?_, neville_gragg_order (d := kmax) (k := kmax) le_rfl hf hφ⟩
  obtain ⟨w1, e1⟩ := hs.bind x0 t0 heap.world fun k => extrapolationStep kmax sys x0 k t0 h
  obtain ⟨ys, w2, e2, e3⟩ := extrapolationResults_value hs kmax x0 t0 h w1
  have H := extrapolation_outofplace_partial kmax hk sys x out hne t0 h heap
  rw [hx] at H
  obtain ⟨heap', r1, r2⟩ := H.total (e1.trans (M.bind_ok e2 _))
  refine ⟨heap', r1, ?_⟩
  rw [r2 _ (ownedBy_user _ _)]
  simp only [Heap.setAll_cons, Heap.setAll_nil, Heap.set_state_self]
  exact neville_congr _ _ _ _ _ e3

/-- `extrapolation_stepper< 8 >` for `x' = x²`. -/
example : ∃ step : ℝ → ℝ, StepsTo (fun _ => True) (fun h => doStep3 (extrapolationImpl 3) (countSys fun (x : ℝ) (_ : ℝ) => x ^ 2)
    (.user 0) 0 (.user 1) h) (.user 0) 1 (.user 1) step ∧ LocalOrder 8 step 0 fun t => 1 / (1 - t) :=
  extrapolation_order 3 (by norm_num) riccati_evaluates (riccati_smooth 8) riccati_solution 0 1 (by norm_num)

/-- **C55.**  The error estimate of `extrapolation_stepper< Order >` has order `error_order() = Order - 2`, and the result minus the estimate
is a method of that order. -/
theorem extrapolation_error_order (kmax : ℕ) (hk1 : 1 ≤ kmax) (hk : kmax < 32767) {sys : Sys ℝ V W} {f : V → ℝ → V} (hs : Evaluates sys f)
    {x0 : V} {t0 : ℝ} {φ : ℝ → V} (hf : SmoothAt f (2 * kmax + 2) x0 t0) (hφ : IsSolution f x0 t0 φ) (x out e : ℕ) (hne : x ≠ out)
    (hoe : out ≠ e) : ∃ step err : ℝ → V,
      StepsTo (fun _ => True) (fun h => doStep7 (extrapolationErrImpl kmax) sys (.user x) t0 (.user out) h (.user e)) (.user x) x0 (.user out)
        step ∧
      StepsTo (fun _ => True) (fun h => doStep7 (extrapolationErrImpl kmax) sys (.user x) t0 (.user out) h (.user e)) (.user x) x0 (.user e)
        err ∧ ErrorOrder (2 * kmax + 2) (2 * kmax) step err t0 φ := by
  have run : ∀ h (heap : Heap ℝ V W), heap.state (.user x) = x0 →
      ∃ heap', doStep7 (extrapolationErrImpl kmax) sys (.user x) t0 (.user out) h (.user e) heap = .ok () heap' ∧
        heap'.state (.user out) = neville (exCoeff (K := ℝ)) (fun i => graggValue f (interval i) x0 t0 h) kmax kmax ∧
        heap'.state (.user e) = neville (exCoeff (K := ℝ)) (fun i => graggValue f (interval i) x0 t0 h) kmax kmax -
          neville (exCoeff (K := ℝ)) (fun i => graggValue f (interval i) x0 t0 h) (kmax - 1) kmax := by
    intro h heap hx
    obtain ⟨w1, e1⟩ := hs.bind x0 t0 heap.world fun k => extrapolationErrStep kmax sys x0 k t0 h
    obtain ⟨ys, w2, e2, e3⟩ := extrapolationResults_value hs kmax x0 t0 h w1
    have H : Implements [.base, .midp, .extrap] heap (doStep7 (extrapolationErrImpl kmax) sys (.user x) t0 (.user out) h (.user e))
        (sys (heap.state (.user x)) t0 >>= fun k => extrapolationErrStep kmax sys (heap.state (.user x)) k t0 h)
        (fun r => [(.user out, r.1), (.user e, r.2)]) [.user out] := by
      unfold doStep7
      refine Implements.sys (by simp [mDxdt, Loc.ownedBy]) rfl fun k w => ?_
      have := (extrapolationErr_implements kmax hk1 hk sys (.user x) mDxdt (.user out) (.user e) t0 h (heap.put mDxdt k w)
        (ownedBy_user _ _) (by simp [mDxdt, Loc.ownedBy]) (ownedBy_user _ _) (by simpa using hne)
        (by simp [mDxdt])).mono_own (os' := [.base, .midp, .extrap]) (by simp)
      rwa [Heap.put_state_ne _ _ _ (by simp [mDxdt]), Heap.put_state_self] at this
    rw [hx] at H
    obtain ⟨heap', r1, r2⟩ := H.total (e1.trans (M.bind_ok e2 _))
    refine ⟨heap', r1, ?_, ?_⟩
    · rw [r2 _ (ownedBy_user _ _)]
      simp only [Heap.setAll_cons, Heap.setAll_nil, Heap.set_state_apply]
      rw [if_neg (by simpa using hoe), if_true]
      exact neville_congr _ _ _ _ _ e3
    · rw [r2 _ (ownedBy_user _ _)]
      simp only [Heap.setAll_cons, Heap.setAll_nil, Heap.set_state_self]
      rw [lin_pair, neville_congr _ _ _ kmax kmax e3, neville_congr _ _ _ (kmax - 1) kmax e3]
      simp [lit, sub_eq_add_neg]
  have o1 := neville_gragg_order (d := kmax) (k := kmax) le_rfl hf hφ
  have o2 := neville_gragg_order (d := kmax - 1) (k := kmax) (by omega) (f := f) (x0 := x0) (t0 := t0)
    (hf.of_le (by exact_mod_cast (by omega : 2 * (kmax - 1) + 2 ≤ 2 * kmax + 2))) hφ
  rw [show 2 * (kmax - 1) + 2 = 2 * kmax by omega] at o2
  refine ⟨_, _, fun h heap _ hx => ?_, fun h heap _ hx => ?_, ErrorOrder.of (q := 2 * kmax) (by omega) o1 (?_ :
    (fun h => neville (exCoeff (K := ℝ)) (fun i => graggValue f (interval i) x0 t0 h) kmax kmax -
          neville (exCoeff (K := ℝ)) (fun i => graggValue f (interval i) x0 t0 h) (kmax - 1) kmax) =O[𝓝 0] fun h : ℝ => h ^ (2 * kmax + 1))⟩
  · obtain ⟨heap', r1, r2, -⟩ := run h heap hx; exact ⟨heap', r1, r2⟩
  · obtain ⟨heap', r1, -, r2⟩ := run h heap hx; exact ⟨heap', r1, r2⟩
  · unfold LocalOrder at o1 o2
    refine ((o1.trans (pow_isBigO (by omega))).sub o2).congr_left fun h => ?_
    simp only []
    abel

example : ∃ step err : ℝ → ℝ,
    StepsTo (fun _ => True) (fun h => doStep7 (extrapolationErrImpl 3) (countSys fun (x : ℝ) (_ : ℝ) => x ^ 2) (.user 0) 0 (.user 1) h (.user 2))
      (.user 0) 1 (.user 1) step ∧
    StepsTo (fun _ => True) (fun h => doStep7 (extrapolationErrImpl 3) (countSys fun (x : ℝ) (_ : ℝ) => x ^ 2) (.user 0) 0 (.user 1) h (.user 2))
      (.user 0) 1 (.user 2) err ∧ ErrorOrder 8 6 step err 0 fun t => 1 / (1 - t) :=
  extrapolation_error_order 3 (by norm_num) (by norm_num) riccati_evaluates (riccati_smooth 8) riccati_solution 0 1 2 (by norm_num) (by norm_num)

end Verif
