import Verif.Model.External
import Verif.Lemmas.Algebra
import Verif.Props.Algebra

/-! # Lemmas about the operations for other libraries -/

set_option linter.unusedSectionVars false

namespace Verif
variable {ι K : Type} [DecidableEq ι]

/-- A loop whose functor stores one value, computed from components that are not yet overwritten, in its first
argument. -/
theorem pointwise_for_each (op : List (Action K)) (dst : ι) (srcs : List ι) (m : Mem ι K) (new : ℕ → K)
    (h : ∀ i w, i < (m dst).length → w = Function.update m dst (mixed new (m dst) i) →
      callOp op ((dst :: srcs).map fun c => (c, i)) w = .ok () (Function.update w dst ((w dst).set i (new i)))) :
    rangeForEach op dst srcs m =
      .ok () (Function.update m dst ((List.range (m dst).length).map new)) := by
  rw [rangeForEach_eq]
  obtain ⟨w, hw, hP⟩ := forM_range (fun i => callOp op ((dst :: srcs).map fun c => (c, i)))
    (fun i w => w = Function.update m dst (mixed new (m dst) i)) (m dst).length m
    (by simp [mixed_zero]) (by
      intro i w hi hw
      refine ⟨_, h i w hi hw, ?_⟩
      subst hw
      simp only [Function.update_self, Function.update_idem]
      rw [mixed_set _ _ hi])
  rw [hw, hP, mixed_all]

section Blas
variable [Add K] [Mul K] [IntCast K]

theorem blasCopy_loop (dst src : ι) (m : Mem ι K) (x : ℕ → K) (hx : ∀ i < (m dst).length, (m src)[i]? = some (x i)) :
    rangeForEach blasCopyOp dst [src] m = .ok () (Function.update m dst ((List.range (m dst).length).map x)) := by
  refine pointwise_for_each _ _ _ _ _ ?_
  rintro i w hi rfl
  set w := Function.update m dst (mixed x (m dst) i) with hw
  have r : (w src)[i]? = some (x i) := by
    by_cases h : src = dst
    · subst h; rw [hw, Function.update_self, mixed_getElem?_ge _ _ (le_refl _)]; exact hx i hi
    · rw [hw, Function.update_of_ne h]; exact hx i hi
  have l : i < (w dst).length := by rw [hw, Function.update_self, mixed_length _ _ hi.le]; exact hi
  refine callOp_of (regs := [x i]) ?_
  simp [callInstrs, blasCopyOp, runInstrs, Instr.exec, Action.exec, r, l]

theorem blasScal_loop (a : K) (dst : ι) (m : Mem ι K) (x : ℕ → K) (hx : ∀ i < (m dst).length, (m dst)[i]? = some (x i)) :
    rangeForEach (blasScalOp a) dst [] m =
      .ok () (Function.update m dst ((List.range (m dst).length).map fun i => a * x i)) := by
  refine pointwise_for_each _ _ _ _ _ ?_
  rintro i w hi rfl
  set w := Function.update m dst (mixed (fun i => a * x i) (m dst) i) with hw
  have r : (w dst)[i]? = some (x i) := by
    rw [hw, Function.update_self, mixed_getElem?_ge _ _ (le_refl _)]; exact hx i hi
  have l : i < (w dst).length := by rw [hw, Function.update_self, mixed_length _ _ hi.le]; exact hi
  obtain ⟨_, r'⟩ := List.getElem?_eq_some_iff.mp r
  refine callOp_of (regs := [x i]) ?_
  simp [callInstrs, blasScalOp, runInstrs, Instr.exec, Action.exec, l, r']

theorem blasAxpy_loop (a : K) (dst src : ι) (m : Mem ι K) (y x : ℕ → K)
    (hy : ∀ i < (m dst).length, (m dst)[i]? = some (y i)) (hx : ∀ i < (m dst).length, (m src)[i]? = some (x i)) :
    rangeForEach (blasAxpyOp a) dst [src] m =
      .ok () (Function.update m dst ((List.range (m dst).length).map fun i => y i + a * x i)) := by
  refine pointwise_for_each _ _ _ _ _ ?_
  rintro i w hi rfl
  set w := Function.update m dst (mixed (fun i => y i + a * x i) (m dst) i) with hw
  have r : (w dst)[i]? = some (y i) := by
    rw [hw, Function.update_self, mixed_getElem?_ge _ _ (le_refl _)]; exact hy i hi
  have r2 : (w src)[i]? = some (x i) := by
    by_cases h : src = dst
    · subst h; rw [hw, Function.update_self, mixed_getElem?_ge _ _ (le_refl _)]; exact hx i hi
    · rw [hw, Function.update_of_ne h]; exact hx i hi
  have l : i < (w dst).length := by rw [hw, Function.update_self, mixed_length _ _ hi.le]; exact hi
  obtain ⟨_, r'⟩ := List.getElem?_eq_some_iff.mp r
  refine callOp_of (regs := [y i, x i]) ?_
  simp [callInstrs, blasAxpyOp, runInstrs, Instr.exec, Action.exec, l, r', r2]

/-- The calls of `daxpy` for summands that are not the output. -/
theorem mklAxpys_eq (t1 : ι) (n : ℕ) (x : ι → ℕ → K) (ps : List (K × ι)) :
    ∀ (m : Mem ι K) (y : ℕ → K), m t1 = (List.range n).map y → (∀ p ∈ ps, p.2 ≠ t1) →
      (∀ p ∈ ps, ∀ i < n, (m p.2)[i]? = some (x p.2 i)) →
      mklAxpys t1 ps m = .ok () (Function.update m t1 ((List.range n).map fun i =>
        ps.foldl (fun acc p => acc + p.1 * x p.2 i) (y i))) := by
  induction ps with
  | nil => intro m y hy _ _; simp [mklAxpys, ← hy, pure]
  | cons p ps ih =>
    intro m y hy hne hx
    have hlen : (m t1).length = n := by simp [hy]
    have h1 := blasAxpy_loop p.1 t1 p.2 m y (x p.2)
      (by intro i hi; rw [hlen] at hi; simp [hy, hi]) (by intro i hi; rw [hlen] at hi; exact hx p (by simp) i hi)
    rw [hlen] at h1
    rw [mklAxpys, M.bind_ok h1]
    rw [ih _ (fun i => y i + p.1 * x p.2 i) (by simp) (fun q hq => hne q (by simp [hq])) (by
      intro q hq i hi
      rw [Function.update_of_ne (hne q (by simp [hq]))]
      exact hx q (by simp [hq]) i hi)]
    simp

theorem scaleSumValue_pairs (a1 : K) (t2 : ι) (ps : List (K × ι)) (x : ι → K) :
    scaleSumValue (((a1, t2) :: ps).map Prod.fst) ((((a1, t2) :: ps).map Prod.snd).map x) =
      ps.foldl (fun acc p => acc + p.1 * x p.2) (a1 * x t2) := by
  have : ((((a1, t2) :: ps).map Prod.fst).zip ((((a1, t2) :: ps).map Prod.snd).map x)) =
      (a1, x t2) :: ps.map (fun p => (p.1, x p.2)) := by
    simp [List.zip_map', Function.comp_def, List.map_map]
  rw [scaleSumValue, this]
  simp [List.foldl_map]

end Blas

/-! ## The reduction of thrust -/

section Reduce

theorem thrustMaximum_abs (eps a b : ℝ) : |thrustMaximum (realOps eps) a b| = max |a| |b| := by
  unfold thrustMaximum
  by_cases h : |a| < |b|
  · simp [realOps, h, max_eq_right h.le]
  · simp [realOps, h, max_eq_left (not_lt.mp h)]

/-- The absolute value of the result of any reduction: an upper bound of the absolute values, attained by the value at
a leaf. -/
theorem reduce_spec (eps : ℝ) (T : ReduceTree ℝ) :
    T.eval (thrustMaximum (realOps eps)) ∈ T.leaves ∧
      ∀ v ∈ T.leaves, |v| ≤ |T.eval (thrustMaximum (realOps eps))| := by
  induction T with
  | leaf v => simp [ReduceTree.eval, ReduceTree.leaves]
  | node l r ihl ihr =>
    constructor
    · rw [ReduceTree.eval, ReduceTree.leaves, List.mem_append]
      unfold thrustMaximum
      split
      · exact Or.inr ihr.1
      · exact Or.inl ihl.1
    · intro v hv
      rw [ReduceTree.eval, thrustMaximum_abs]
      rcases List.mem_append.mp hv with hv | hv
      · exact le_max_of_le_left (ihl.2 v hv)
      · exact le_max_of_le_right (ihr.2 v hv)

end Reduce
end Verif
