import Verif.Lemmas.External
import Verif.Spec.RealOps
import Mathlib.Tactic.Linarith
import Mathlib.Tactic.Positivity
import Mathlib.Tactic.NormNum
import Mathlib.Tactic.FieldSimp

/-!
# C77: the operations and norms for other libraries compute the same as the default ones

* `mkl_scale_sum_eq`, `mkl_scale_sum_alias_wrong`: linear combinations with MKL,
* `thrust_norm_inf_abs`, `thrust_norm_inf_nonneg`, `thrust_norm_inf_exists`, `thrust_norm_inf_sign`,
  `thrust_norm_inf_order`: the norm with thrust,
* `thrust_error_eq`, `thrust_error_stricter`, `thrust_error_rejects`, `thrust_error_accepts`: the error of a controlled
  step with thrust or Boost.Compute,
* `matrix_norm_bounds`, `matrix_norm_differs`: the norm of a matrix.
-/

set_option linter.unusedSectionVars false
set_option linter.unusedSimpArgs false

namespace Verif
variable {ι K : Type} [DecidableEq ι]

section Mkl
variable [Add K] [Mul K] [IntCast K]

/-- C77: `scale_sum2` ... `scale_sum5` of `mkl_operations` store the same linear combination, with the operations in the
same order, as those of `default_operations`, if the output is none of the summands except possibly the first one.  No law
of arithmetic is used. -/
theorem mkl_scale_sum_eq (t1 : ι) (ps : List (K × ι)) (hps : ps ≠ []) (m : Mem ι K) (hne : ∀ p ∈ ps.tail, p.2 ≠ t1)
    (hlen : ∀ p ∈ ps, (m t1).length ≤ (m p.2).length) :
    mklScaleSum t1 ps m = rangeForEach (scaleSumOp (ps.map Prod.fst)) t1 (ps.map Prod.snd) m := by
  obtain ⟨⟨a1, t2⟩, ps, rfl⟩ := List.exists_cons_of_ne_nil hps
  set n := (m t1).length with hn
  set x : ι → ℕ → K := fun s i => (m s)[i]?.getD (lit 0) with hxdef
  have hx : ∀ s, n ≤ (m s).length → ∀ i < n, (m s)[i]? = some (x s i) := by
    intro s hs i hi
    have : i < (m s).length := lt_of_lt_of_le hi hs
    simp [hxdef, this]
  have hrhs := scale_sum_for_each (((a1, t2) :: ps).map Prod.fst) t1 (((a1, t2) :: ps).map Prod.snd) (by simp) m x (by
    intro s hs i hi
    obtain ⟨p, hp, rfl⟩ := List.mem_map.mp hs
    exact hx p.2 (hlen p hp) i hi)
  rw [hrhs]
  have h2 : n ≤ (m t2).length := hlen (a1, t2) (by simp)
  have hcopy : mklCopyFirst t1 t2 m = .ok () (Function.update m t1 ((List.range n).map (x t2))) := by
    unfold mklCopyFirst
    by_cases h : t2 = t1
    · subst h
      rw [if_neg (by simp)]
      have : (List.range n).map (x t2) = m t2 := by
        apply List.ext_getElem?
        intro i
        by_cases hi : i < n
        · rw [hx t2 h2 i hi]; simp [hi]
        · simp [hi]; omega
      rw [this, Function.update_eq_self]; rfl
    · rw [if_pos h]
      exact blasCopy_loop t1 t2 m (x t2) (hx t2 h2)
  rw [mklScaleSum, M.bind_ok hcopy]
  have hscal := blasScal_loop a1 t1 (Function.update m t1 ((List.range n).map (x t2))) (x t2) (by
    intro i hi
    simp only [Function.update_self, List.length_map, List.length_range] at hi ⊢
    simp [hi])
  simp only [Function.update_self, List.length_map, List.length_range, Function.update_idem] at hscal
  rw [M.bind_ok hscal, mklAxpys_eq t1 n x ps _ (fun i => a1 * x t2 i) (by simp) (fun p hp => hne p (by simpa using hp)) (by
    intro p hp i hi
    rw [Function.update_of_ne (hne p (by simpa using hp))]
    exact hx p.2 (hlen p (by simp [hp])) i hi)]
  simp only [Function.update_idem]
  congr 2
  apply List.map_congr_left
  intro i _
  rw [scaleSumValue_pairs a1 t2 ps (fun s => x s i)]

/-- C77: the call of `euler` with the output in the variable of the first summand: the hypotheses of `mkl_scale_sum_eq`
are met. -/
example : mklScaleSum (K := ℤ) (0 : ℕ) [(1, 0), (5, 1)] (fun s => if s = 0 then [1, 2] else [10, 20]) =
    rangeForEach (scaleSumOp [1, 5]) 0 [0, 1] (fun s => if s = 0 then [1, 2] else [10, 20]) :=
  mkl_scale_sum_eq 0 [(1, 0), (5, 1)] (by simp) _ (by simp) (by simp)

/-- C77 is false if the output is another summand: `t1 = 1 * t2 + 1 * t1` for `t2 = 1`, `t1 = 2` gives 3 with the default
operations and 2 with MKL.  This is the call of `euler::do_step( sys , in , dxdt , t , out , dt )` with `out` the variable
`dxdt`. -/
theorem mkl_scale_sum_alias_wrong :
    ∃ (m m1 m2 : Mem Bool ℤ),
      rangeForEach (scaleSumOp [1, 1]) true [false, true] m = .ok () m1 ∧
      mklScaleSum true [(1, false), (1, true)] m = .ok () m2 ∧ m1 true = [3] ∧ m2 true = [2] := by
  have h0 := scale_sum_for_each (K := ℤ) [1, 1] true [false, true] (by simp) (fun b => if b then [2] else [1])
    (fun b _ => if b then 2 else 1) (by simp)
  have h1 := blasCopy_loop (K := ℤ) true false (fun b => if b then [2] else [1]) (fun _ => 1) (by simp)
  have h2 := blasScal_loop (K := ℤ) 1 true (fun _ : Bool => [1]) (fun _ => 1) (by simp)
  have h3 := blasAxpy_loop (K := ℤ) 1 true true (fun _ : Bool => [1]) (fun _ => 1) (fun _ => 1) (by simp) (by simp)
  have e1 : Function.update (fun b : Bool => if b then [(2 : ℤ)] else [1]) true
      ((List.range 1).map fun _ => 1) = fun _ => [1] := by
    funext b; cases b <;> rfl
  have e2 : Function.update (fun _ : Bool => [(1 : ℤ)]) true ((List.range 1).map fun _ => 1 * 1) = fun _ => [1] := by
    funext b; cases b <;> rfl
  simp only [if_true, List.length_singleton] at h1
  rw [e1] at h1
  simp only [List.length_singleton] at h2 h3
  rw [e2] at h2
  have h4 : mklScaleSum true [((1 : ℤ), false), (1, true)] (fun b => if b then [2] else [1]) =
      .ok () (Function.update (fun _ => [1]) true ((List.range 1).map fun _ => 1 + 1 * 1)) := by
    have h1' : mklCopyFirst true false (fun b => if b then [(2 : ℤ)] else [1]) = .ok () (fun _ => [1]) := by
      unfold mklCopyFirst; rw [if_pos (by simp)]; exact h1
    rw [mklScaleSum, M.bind_ok h1', M.bind_ok h2, mklAxpys, M.bind_ok h3]
    rfl
  exact ⟨_, _, _, h0, h4, by simp [scaleSumValue], by simp⟩

end Mkl

/-! ## thrust and Boost.Compute -/

section Thrust

/-- C77: whatever the order in which `thrust_algebra::norm_inf` combines the components, the absolute value of its result
is the maximum of their absolute values. -/
theorem thrust_norm_inf_abs (eps : ℝ) (s : List ℝ) (v : ℝ) (h : ThrustNormInf (realOps eps) s v) :
    |v| = normInf (realOps eps) (lit 0) s := by
  obtain ⟨T, hT, rfl⟩ := h
  obtain ⟨h1, h2⟩ := reduce_spec eps T
  obtain ⟨g1, g2, g3, _⟩ := norm_inf_spec eps s
  have h0 : (lit 0 : ℝ) = 0 := by simp [lit]
  apply le_antisymm
  · rcases List.mem_cons.mp (hT.mem_iff.mp h1) with h | h
    · rw [h, h0, abs_zero, ← h0]; simpa [h0] using g1
    · exact g2 _ h
  · rcases g3 with g3 | ⟨u, hu, g3⟩
    · rw [g3]; exact abs_nonneg _
    · rw [g3]; exact h2 u (hT.mem_iff.mpr (by simp [hu]))

/-- C77: for components that are not negative, as they are after `rel_error`, the norm is that of the default algebra, for
every order of the reduction. -/
theorem thrust_norm_inf_nonneg (eps : ℝ) (s : List ℝ) (hs : ∀ u ∈ s, 0 ≤ u) (v : ℝ) (h : ThrustNormInf (realOps eps) s v) :
    v = normInf (realOps eps) (lit 0) s := by
  rw [← thrust_norm_inf_abs eps s v h]
  obtain ⟨T, hT, rfl⟩ := h
  rw [abs_of_nonneg]
  rcases List.mem_cons.mp (hT.mem_iff.mp (reduce_spec eps T).1) with h | h
  · rw [h]; simp [lit]
  · exact hs _ h

/-- the sequential reduction -/
def ReduceTree.chain {K : Type} (v : K) : List K → ReduceTree K
  | [] => .leaf v
  | u :: us => .node (.leaf v) (chain u us)

theorem ReduceTree.chain_leaves {K : Type} (v : K) (l : List K) : (ReduceTree.chain v l).leaves = v :: l := by
  induction l generalizing v with
  | nil => rfl
  | cons u us ih => simp [chain, leaves, ih]

/-- C77: there is always a result. -/
theorem thrust_norm_inf_exists {K : Type} [IntCast K] (O : NumOps K) (s : List K) : ∃ v, ThrustNormInf O s v :=
  ⟨_, ReduceTree.chain (lit 0) s, by rw [ReduceTree.chain_leaves], rfl⟩

/-- C77 is false for components that are negative: the norm of `( -3 )` is -3, for every order of the reduction. -/
theorem thrust_norm_inf_sign (eps v : ℝ) (h : ThrustNormInf (realOps eps) [-3] v) : v = -3 := by
  have h1 := thrust_norm_inf_abs eps _ v h
  have h2 : normInf (realOps eps) (lit 0) [-3] = 3 := by
    norm_num [normInf, NumOps.max, realOps, lit]
  obtain ⟨T, hT, rfl⟩ := h
  rcases List.mem_cons.mp (hT.mem_iff.mp (reduce_spec eps T).1) with h | h
  · rw [h, h2] at h1; norm_num [lit] at h1
  · simpa using h

/-- C77: and the result may depend on the order of the reduction. -/
theorem thrust_norm_inf_order (eps : ℝ) :
    ThrustNormInf (realOps eps) [1, -1] 1 ∧ ThrustNormInf (realOps eps) [1, -1] (-1) := by
  constructor
  · refine ⟨.node (.leaf (lit 0)) (.node (.leaf 1) (.leaf (-1))), by simp [ReduceTree.leaves], ?_⟩
    norm_num [ReduceTree.eval, thrustMaximum, realOps, lit]
  · refine ⟨.node (.leaf (lit 0)) (.node (.leaf (-1)) (.leaf 1)), ?_, ?_⟩
    · simp only [ReduceTree.leaves, List.singleton_append]
      exact (List.Perm.swap _ _ _).cons _
    · norm_num [ReduceTree.eval, thrustMaximum, realOps, lit]

variable {eps : ℝ}

theorem thrustRelErrorLoop_nonneg {ea er ax ad : ℝ} (hea : 0 ≤ ea) (her : 0 ≤ er) (hax : 0 ≤ ax) :
    ∀ (err x dxdt : List ℝ), ∀ u ∈ thrustRelErrorLoop (realOps eps) ea er ax ad err x dxdt, 0 ≤ u
  | [], _, _ => by simp [thrustRelErrorLoop]
  | _ :: _, [], _ => by simp [thrustRelErrorLoop]
  | _ :: _, _ :: _, [] => by simp [thrustRelErrorLoop]
  | e :: es, y :: ys, d :: ds => by
    intro u hu
    rw [thrustRelErrorLoop, List.mem_cons] at hu
    rcases hu with rfl | hu
    · unfold thrustRelError
      simp only [realOps]
      positivity
    · exact thrustRelErrorLoop_nonneg hea her hax es ys ds u hu

/-- C77: the error of a step that a controlled stepper computes with thrust or Boost.Compute is that of the default
operations if the components of the state are not negative (and `a_x = 1`, the default). -/
theorem thrust_error_eq {ea er ad : ℝ} (hea : 0 ≤ ea) (her : 0 ≤ er) (had : 0 ≤ ad) (x dxdt err : List ℝ)
    (hx : ∀ u ∈ x, 0 ≤ u) (dt v : ℝ) (h : ThrustError (realOps eps) ea er 1 ad x dxdt err dt v) :
    v = ((defaultErrorChecker (realOps eps) ea er 1 ad).error x dxdt err dt).2 := by
  rw [thrust_norm_inf_nonneg eps _ (thrustRelErrorLoop_nonneg hea her zero_le_one err x dxdt) v h]
  simp only [defaultErrorChecker]
  congr 1
  have had' : 0 ≤ ad * (realOps eps).abs dt := mul_nonneg had (abs_nonneg _)
  generalize ad * (realOps eps).abs dt = a at had'
  clear h
  induction err generalizing x dxdt with
  | nil => simp [thrustRelErrorLoop, relErrorLoop]
  | cons e es ih =>
    cases x with
    | nil => simp [thrustRelErrorLoop, relErrorLoop]
    | cons y ys =>
      cases dxdt with
      | nil => simp [thrustRelErrorLoop, relErrorLoop]
      | cons d ds =>
        rw [thrustRelErrorLoop, relErrorLoop, ih ys ds (fun u hu => hx u (by simp [hu]))]
        congr 1
        unfold thrustRelError relError
        have hy : 0 ≤ y := hx y (by simp)
        have : (0 : ℝ) ≤ a * |d| := by positivity
        simp only [realOps, abs_of_nonneg hy, abs_of_nonneg (add_nonneg hy this), one_mul]

/-- C77: with `a_x = 1`, the default, the error is never smaller than that of the default operations: a step that is
accepted with thrust would be accepted with the default operations. -/
theorem thrust_error_stricter {ea er ad : ℝ} (hea : 0 < ea) (her : 0 ≤ er) (had : 0 ≤ ad) (x dxdt err : List ℝ)
    (dt v : ℝ) (h : ThrustError (realOps eps) ea er 1 ad x dxdt err dt v) :
    ((defaultErrorChecker (realOps eps) ea er 1 ad).error x dxdt err dt).2 ≤ v := by
  rw [thrust_norm_inf_nonneg eps _ (thrustRelErrorLoop_nonneg hea.le her zero_le_one err x dxdt) v h]
  simp only [defaultErrorChecker]
  have had' : 0 ≤ ad * (realOps eps).abs dt := mul_nonneg had (abs_nonneg _)
  generalize ad * (realOps eps).abs dt = a at had'
  clear h
  have hmax : ∀ i u : ℝ, (realOps eps).max i ((realOps eps).abs u) = max i |u| := by
    intro i u
    simp only [NumOps.max, realOps]
    by_cases h : i < |u|
    · simp [h, max_eq_right h.le]
    · simp [h, max_eq_left (not_lt.mp h)]
  have key : ∀ (err x dxdt : List ℝ) (i j : ℝ), i ≤ j →
      normInf (realOps eps) i (relErrorLoop (realOps eps) ea er 1 a err x dxdt) ≤
        normInf (realOps eps) j (thrustRelErrorLoop (realOps eps) ea er 1 a err x dxdt) := by
    intro err
    induction err with
    | nil => intro x dxdt i j hij; simpa [thrustRelErrorLoop, relErrorLoop, normInf] using hij
    | cons e es ih =>
      intro x dxdt i j hij
      cases x with
      | nil => simpa [thrustRelErrorLoop, relErrorLoop, normInf] using hij
      | cons y ys =>
        cases dxdt with
        | nil => simpa [thrustRelErrorLoop, relErrorLoop, normInf] using hij
        | cons d ds =>
          rw [thrustRelErrorLoop, relErrorLoop, normInf, normInf, hmax, hmax]
          refine ih ys ds _ _ (max_le_max hij ?_)
          have h1 : 0 ≤ relError (realOps eps) ea er 1 a e y d := by
            unfold relError; simp only [realOps]; positivity
          have h2 : 0 ≤ thrustRelError (realOps eps) ea er 1 a e y d := by
            unfold thrustRelError; simp only [realOps]; positivity
          rw [abs_of_nonneg h1, abs_of_nonneg h2]
          unfold relError thrustRelError
          simp only [realOps, one_mul]
          have h3 : abs (y + a * |d|) ≤ |y| + a * |d| := by
            have := abs_add_le y (a * |d|)
            rwa [abs_of_nonneg (show (0 : ℝ) ≤ a * |d| by positivity)] at this
          apply div_le_div_of_nonneg_left (abs_nonneg _)
          · positivity
          · nlinarith
  exact key err x dxdt _ _ le_rfl

/-- A result of the error check with one component. -/
theorem thrust_error_single {ea er ax ad : ℝ} (hea : 0 ≤ ea) (her : 0 ≤ er) (hax : 0 ≤ ax) (x dxdt err dt v : ℝ)
    (h : ThrustError (realOps eps) ea er ax ad [x] [dxdt] [err] dt v) :
    v = |err| / (ea + er * (ax * abs (x + ad * |dt| * |dxdt|))) := by
  have hn := thrustRelErrorLoop_nonneg (eps := eps) (ad := ad * (realOps eps).abs dt) hea her hax [err] [x] [dxdt]
  rw [thrust_norm_inf_nonneg eps _ hn v h]
  simp only [thrustRelErrorLoop, List.mem_singleton, forall_eq] at hn
  have h0 : (lit 0 : ℝ) = 0 := by simp [lit]
  simp only [thrustRelErrorLoop, normInf, h0, NumOps.max]
  have e1 : (realOps eps).abs (thrustRelError (realOps eps) ea er ax (ad * (realOps eps).abs dt) err x dxdt) =
      |err| / (ea + er * (ax * abs (x + ad * |dt| * |dxdt|))) := by
    simp only [realOps, thrustRelError] at hn ⊢
    rw [abs_of_nonneg hn]
  rw [e1]
  have hpos : 0 ≤ |err| / (ea + er * (ax * abs (x + ad * |dt| * |dxdt|))) := by positivity
  split
  · rfl
  · rename_i hlt
    simp only [realOps, decide_eq_true_eq, not_lt] at hlt
    exact le_antisymm hpos hlt

theorem default_error_single {ea er ax ad : ℝ} (hea : 0 ≤ ea) (her : 0 ≤ er) (hax : 0 ≤ ax) (had : 0 ≤ ad)
    (x dxdt err dt : ℝ) :
    ((defaultErrorChecker (realOps eps) ea er ax ad).error [x] [dxdt] [err] dt).2 =
      |err| / (ea + er * (ax * |x| + ad * |dt| * |dxdt|)) := by
  have h0 : (lit 0 : ℝ) = 0 := by simp [lit]
  have hpos : 0 ≤ |err| / (ea + er * (ax * |x| + ad * |dt| * |dxdt|)) := by positivity
  simp only [defaultErrorChecker, relErrorLoop, normInf, h0, NumOps.max, relError]
  simp only [realOps, abs_of_nonneg hpos, decide_eq_true_eq]
  split
  · rfl
  · rename_i hlt
    exact le_antisymm hpos (not_lt.mp hlt)

/-- C77 is false: for any tolerances there are steps that are accepted with the default operations although the error
computed with thrust or Boost.Compute is as large as one likes (for every order of the reduction): a negative component of
the state and the contribution of the derivative cancel. -/
theorem thrust_error_rejects {ea er ad dt : ℝ} (hea : 0 < ea) (her : 0 < er) (had : 0 < ad) (hdt : dt ≠ 0) (B : ℝ) :
    ∃ x dxdt err : ℝ, ((defaultErrorChecker (realOps eps) ea er 1 ad).error [x] [dxdt] [err] dt).2 ≤ 1 ∧
      ∀ v, ThrustError (realOps eps) ea er 1 ad [x] [dxdt] [err] dt v → B < v := by
  have hdt' : 0 < |dt| := abs_pos.mpr hdt
  have hB : 0 < |B| + 1 := by positivity
  set R : ℝ := ea * (|B| + 1) / er with hR
  have hRpos : 0 < R := by positivity
  refine ⟨-R, R / (ad * |dt|), ea * (|B| + 1), ?_, ?_⟩
  · rw [default_error_single hea.le her.le zero_le_one had.le]
    have h1 : ad * |dt| * |R / (ad * |dt|)| = R := by
      rw [abs_of_pos (by positivity : 0 < R / (ad * |dt|))]; field_simp
    rw [h1, abs_neg, abs_of_pos hRpos, abs_of_pos (by positivity : 0 < ea * (|B| + 1)), div_le_one (by positivity)]
    have h2 : er * R = ea * (|B| + 1) := by rw [hR]; field_simp
    nlinarith
  · intro v hv
    rw [thrust_error_single hea.le her.le zero_le_one _ _ _ _ v hv]
    have h1 : -R + ad * |dt| * |R / (ad * |dt|)| = 0 := by
      rw [abs_of_pos (by positivity : 0 < R / (ad * |dt|))]; field_simp; ring
    rw [h1, abs_zero, mul_zero, mul_zero, add_zero, abs_of_pos (by positivity : 0 < ea * (|B| + 1)),
      mul_div_cancel_left₀ _ hea.ne']
    linarith [le_abs_self B]

/-- C77 is false in the other direction too: with `a_x = 2` a step is accepted that is rejected with the default
operations. -/
theorem thrust_error_accepts :
    1 < ((defaultErrorChecker (realOps eps) 1 1 2 1).error [1] [1] [9 / 2] 1).2 ∧
      ∀ v, ThrustError (realOps eps) 1 1 2 1 [1] [1] [9 / 2] 1 v → v < 1 := by
  constructor
  · rw [default_error_single zero_le_one zero_le_one zero_le_two zero_le_one]; norm_num
  · intro v hv
    rw [thrust_error_single zero_le_one zero_le_one zero_le_two _ _ _ _ v hv]; norm_num

/-- A case with two components that meets the hypotheses of `thrust_error_eq` and `thrust_error_stricter`. -/
example : ∃ v, ThrustError (realOps eps) (1 / 10) (1 / 10) 1 1 [1, 2] [3, -4] [1 / 5, -1 / 7] (1 / 2) v ∧
    v = ((defaultErrorChecker (realOps eps) (1 / 10) (1 / 10) 1 1).error [1, 2] [3, -4] [1 / 5, -1 / 7] (1 / 2)).2 := by
  obtain ⟨v, hv⟩ := thrust_norm_inf_exists (realOps eps) (thrustRelErrorLoop (realOps eps) (1 / 10) (1 / 10) 1
    (1 * (realOps eps).abs (1 / 2)) [1 / 5, -1 / 7] [1, 2] [3, -4])
  exact ⟨v, hv, thrust_error_eq (by norm_num) (by norm_num) (by norm_num) _ _ _ (by simp) _ _ hv⟩

end Thrust

/-! ## Matrices -/

section Matrix

theorem foldl_abs_eq (eps : ℝ) (r : List ℝ) :
    r.foldl (fun s v => s + (realOps eps).abs v) (lit 0) = (r.map fun v => |v|).sum := by
  have : ∀ (r : List ℝ) (s : ℝ), r.foldl (fun s v => s + (realOps eps).abs v) s = s + (r.map fun v => |v|).sum := by
    intro r
    induction r with
    | nil => simp
    | cons v vs ih => intro s; rw [List.foldl_cons, ih]; simp [realOps, add_assoc]
  rw [this]; simp [lit]

/-- C77: the norm of a matrix state of ublas lies between the maximum of the absolute values of the elements, which is the
norm if the elements are stored in a range, and this maximum times the number of columns. -/
theorem matrix_norm_bounds (eps : ℝ) (cols : ℕ) (rows : List (List ℝ)) (hcols : ∀ r ∈ rows, r.length = cols) :
    normInf (realOps eps) (lit 0) rows.flatten ≤ ublasMatrixNormInf (realOps eps) rows ∧
      ublasMatrixNormInf (realOps eps) rows ≤ cols * normInf (realOps eps) (lit 0) rows.flatten := by
  set N := normInf (realOps eps) (lit 0) rows.flatten with hN
  obtain ⟨f1, f2, f3, _⟩ := norm_inf_spec eps rows.flatten
  unfold ublasMatrixNormInf
  simp only [foldl_abs_eq]
  obtain ⟨g1, g2, g3, _⟩ := norm_inf_spec eps (rows.map fun r => (r.map fun v => |v|).sum)
  have hsum0 : ∀ r : List ℝ, 0 ≤ (r.map fun v => |v|).sum := by
    intro r; apply List.sum_nonneg; intro u hu
    obtain ⟨w, _, rfl⟩ := List.mem_map.mp hu; exact abs_nonneg w
  constructor
  · rcases f3 with f3 | ⟨v, hv, f3⟩
    · rw [hN, f3]; exact g1
    · rw [hN, f3]
      obtain ⟨r, hr, hvr⟩ := List.mem_flatten.mp hv
      have h1 : |v| ≤ (r.map fun v => |v|).sum := by
        apply List.single_le_sum
        · intro u hu; obtain ⟨w, _, rfl⟩ := List.mem_map.mp hu; exact abs_nonneg w
        · exact List.mem_map_of_mem hvr
      refine h1.trans ((le_abs_self _).trans (g2 _ (List.mem_map_of_mem hr)))
  · rcases g3 with g3 | ⟨u, hu, g3⟩
    · rw [g3]; positivity
    · rw [g3]
      obtain ⟨r, hr, rfl⟩ := List.mem_map.mp hu
      rw [abs_of_nonneg (hsum0 r)]
      have h1 := List.sum_le_card_nsmul (r.map fun v => |v|) N (by
        intro u hu
        obtain ⟨w, hw, rfl⟩ := List.mem_map.mp hu
        exact f2 w (List.mem_flatten.mpr ⟨r, hr, hw⟩))
      rwa [List.length_map, hcols r hr, nsmul_eq_mul] at h1

/-- C77 is false for matrices of ublas: the norm of `( 1 1 )` is 2, and not the largest element. -/
theorem matrix_norm_differs (eps : ℝ) :
    ublasMatrixNormInf (realOps eps) [[1, 1]] = 2 ∧ normInf (realOps eps) (lit 0) [1, 1] = 1 := by
  constructor <;> norm_num [ublasMatrixNormInf, normInf, NumOps.max, realOps, lit]

end Matrix
end Verif
