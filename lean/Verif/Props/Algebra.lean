import Verif.Lemmas.Algebra
import Verif.Model.Midpoint
import Verif.Spec.RealOps
import Mathlib.Tactic.Linarith
import Mathlib.Tactic.NormNum
import Mathlib.Tactic.IntervalCases

/-!
# C43: the algebras

* `range_for_each_in_order`, `array_for_each_in_order`: `for_eachN` calls the functor for the components
  `0, 1, ..., n-1`, once each and in this order, whatever the functor does;
* `scale_sum_for_each`: `for_eachN` with a `scale_sum` functor stores the linear combination of the *old*
  components, whatever containers coincide;
* `scale_sum_short_ub`: a source that is shorter than the output is read beyond its end;
* `swap_for_each`: `scale_sum_swap2`;
* `rel_error_for_each`;
* `linTo_refined`, `copyTo_refined`, `linSwap_refined`: the primitives of the steppers' model are what the loops
  compute;
* `norm_inf_spec`, `norm_inf_ignores_nan`, `fusion_norm_inf_eq`.
-/

set_option linter.unusedSectionVars false
set_option linter.unusedSimpArgs false

namespace Verif
variable {ι K : Type} [DecidableEq ι]

/-- C43: `range_algebra::for_eachN( s1 , ... , sN , op )` calls `op` for every component of the first container,
exactly once, in order. -/
theorem range_for_each_in_order (op : List (Action K)) (s1 : ι) (ss : List ι) (m : Mem ι K) :
    rangeForEach op s1 ss m =
      (List.range (m s1).length).forM (fun i => callOp op ((s1 :: ss).map fun c => (c, i))) m :=
  rangeForEach_eq op s1 ss m

/-- C43: `array_algebra::for_eachN( s1 , ... , sN , op )` does the same for `dim` components. -/
theorem array_for_each_in_order (dim : ℕ) (op : List (Action K)) (ss : List ι) (m : Mem ι K) :
    arrayForEach dim op ss m = (List.range dim).forM (fun i => callOp op (ss.map fun c => (c, i))) m := by
  rw [arrayForEach_eq]

/-- C43: for arrays the two algebras are the same. -/
theorem array_eq_range (op : List (Action K)) (s1 : ι) (ss : List ι) (m : Mem ι K) :
    arrayForEach (m s1).length op (s1 :: ss) m = rangeForEach op s1 ss m := by
  rw [array_for_each_in_order, range_for_each_in_order]

section Ops
variable [Add K] [Mul K] [IntCast K]

omit [Add K] [Mul K] in
theorem callOp_of {op : List (Action K)} {refs : List (Cell ι)} {m m' : Mem ι K} {regs : List K}
    (h : runInstrs (callInstrs op refs) (m, []) = some (m', regs)) : callOp op refs m = .ok () m' := by
  unfold callOp; rw [h]

/-- One call of a `scale_sum` functor. -/
theorem callOp_scaleSum (alphas : List K) (d : Cell ι) (rs : List (Cell ι)) (hlen : alphas.length = rs.length)
    (m : Mem ι K) (x : ℕ → K) (hd : d.2 < (m d.1).length)
    (hx : ∀ j r, rs[j]? = some r → (m r.1)[r.2]? = some (x j)) :
    callOp (scaleSumOp alphas) (d :: rs) m =
      .ok () (Function.update m d.1 ((m d.1).set d.2 (scaleSumValue alphas ((List.range rs.length).map x)))) := by
  apply callOp_of (regs := (List.range rs.length).map x)
  have hl := runInstrs_loads (refs := d :: rs) (m := m) x rs.length 0 [] (by
    intro j _ hj
    have hj' : j < rs.length := by omega
    exact ⟨rs[j], by simp [hj'], hx j _ (by simp [hj'])⟩)
  show (Instr.enter.exec (m, []) >>= runInstrs _) = _
  show runInstrs ((scaleSumOp alphas).map (Instr.act (d :: rs))) (m, []) = _
  rw [scaleSumOp, List.map_append, runInstrs_append, List.map_map, hlen, List.range_eq_range']
  show (runInstrs ((List.range' 0 rs.length).map fun j => Instr.act (d :: rs) (.load (j + 1))) (m, []) >>= _) = _
  rw [hl]
  show runInstrs [Instr.act (d :: rs) (.store 0 (scaleSumValue alphas))] (m, [] ++ _) = _
  rw [runInstrs, exec_store (r := d) (by simp) hd]
  simp [runInstrs]

/-- C43: `for_each{n+1}( dst , s1 , ... , sn , scale_sum{n}( a1 , ... , an ) )` stores
`a1 * s1[i] + ... + an * sn[i]` in `dst[i]`, for every `i`, where the components on the right are those *before* the
call, even if `dst` is one of the sources (or sources coincide); nothing else changes. -/
theorem scale_sum_for_each (alphas : List K) (dst : ι) (srcs : List ι) (hlen : alphas.length = srcs.length)
    (m : Mem ι K) (x : ι → ℕ → K) (hx : ∀ s ∈ srcs, ∀ i < (m dst).length, (m s)[i]? = some (x s i)) :
    rangeForEach (scaleSumOp alphas) dst srcs m =
      .ok () (Function.update m dst ((List.range (m dst).length).map fun i =>
        scaleSumValue alphas (srcs.map fun s => x s i))) := by
  rw [rangeForEach_eq]
  set new : ℕ → K := fun i => scaleSumValue alphas (srcs.map fun s => x s i) with hnew
  obtain ⟨w, hw, hP⟩ := forM_range (fun i => callOp (scaleSumOp alphas) ((dst :: srcs).map fun c => (c, i)))
    (fun i w => w = Function.update m dst (mixed new (m dst) i)) (m dst).length m
    (by simp [mixed_zero]) (by
      rintro i w hi rfl
      refine ⟨_, callOp_scaleSum alphas (dst, i) (srcs.map fun c => (c, i)) (by simpa using hlen) _
        (fun j => if h : j < srcs.length then x srcs[j] i else lit 0)
        (by simp [mixed_length _ _ hi.le, hi]) ?_, ?_⟩
      · intro j r hr
        rw [List.getElem?_map] at hr
        obtain ⟨s, hs, rfl⟩ := Option.map_eq_some_iff.mp hr
        obtain ⟨hj, rfl⟩ := List.getElem?_eq_some_iff.mp hs
        have hv := hx srcs[j] (List.getElem_mem hj) i hi
        simp only [hj, dite_true]
        by_cases hsd : srcs[j] = dst
        · simp only [hsd, Function.update_self]
          rw [mixed_getElem?_ge _ _ (le_refl _), ← hsd]; exact hv
        · simp only [Function.update_of_ne hsd]; exact hv
      · simp only [Function.update_self, Function.update_idem]
        congr 1
        rw [← mixed_set _ _ hi]
        congr 1
        rw [hnew]
        simp only
        congr 1
        apply List.ext_getElem
        · simp
        · intro k h1 h2
          have h1' : k < srcs.length := by simpa using h1
          simp [h1'])
  rw [hw, hP, mixed_all]

/-- C43: the size of the output decides how many components are read: if a source is shorter, the loop reads
beyond its end.  (This is what happens if temporaries are not resized.) -/
theorem scale_sum_short_ub (alpha : K) (dst src : ι) (hne : dst ≠ src) (m : Mem ι K)
    (hs : (m src).length < (m dst).length) : rangeForEach (scaleSumOp [alpha]) dst [src] m = .ub := by
  rw [rangeForEach_eq]
  have hsplit : List.range (m dst).length =
      List.range (m src).length ++ List.range' (m src).length ((m dst).length - (m src).length) := by
    have h := List.range'_append_1 (s := 0) (m := (m src).length) (n := (m dst).length - (m src).length)
    rw [Nat.zero_add, Nat.add_sub_cancel' hs.le] at h
    rw [List.range_eq_range', List.range_eq_range', h]
  set f := fun i => callOp (scaleSumOp [alpha]) ((dst :: [src]).map fun c => (c, i)) with hf
  obtain ⟨w, hw, h1, h2⟩ := forM_range f
    (fun i w => w src = m src ∧ (w dst).length = (m dst).length) (m src).length m ⟨rfl, rfl⟩ (by
      rintro i w hi ⟨h1, h2⟩
      refine ⟨_, callOp_scaleSum [alpha] (dst, i) [(src, i)] rfl w (fun _ => (m src)[i]) (by simp [h2]; omega) ?_,
        ?_, ?_⟩
      · intro j r hr
        obtain ⟨hj, rfl⟩ := List.getElem?_eq_some_iff.mp hr
        have : j = 0 := by simpa using hj
        subst this
        simp [h1, hi]
      · simp [Function.update_of_ne hne.symm, h1]
      · simp [h2])
  rw [hsplit, show (m dst).length - (m src).length = ((m dst).length - (m src).length - 1) + 1 by omega,
    List.range'_succ]
  have happ : ∀ (l1 l2 : List ℕ), (l1 ++ l2).forM f = (l1.forM f >>= fun _ => l2.forM f) := by
    intro l1 l2
    induction l1 with
    | nil => rfl
    | cons a l ih =>
      show (f a >>= fun _ => (l ++ l2).forM f) = ((f a >>= fun _ => l.forM f) >>= fun _ => l2.forM f)
      rw [ih, bind_assoc]
  rw [happ, M.bind_ok hw]
  show (f (m src).length >>= fun _ => _) w = _
  apply M.bind_ub
  rw [hf]
  simp [callOp, callInstrs, scaleSumOp, runInstrs, Instr.exec, Action.exec, h1, List.range_succ]

/-- C43: `for_each3( a , b , c , scale_sum_swap2( f1 , f2 ) )` for two different containers `a`, `b` of the same
size: `a` becomes `f1 * b + f2 * c` and `b` becomes the old `a`, also if `c` is one of them. -/
theorem swap_for_each (f1 f2 : K) (a b c : ι) (hab : a ≠ b) (m : Mem ι K) (x : ι → ℕ → K)
    (hb : (m b).length = (m a).length) (hx : ∀ s ∈ [a, b, c], ∀ i < (m a).length, (m s)[i]? = some (x s i)) :
    rangeForEach (scaleSumSwap2Op f1 f2) a [b, c] m =
      .ok () (Function.update (Function.update m a ((List.range (m a).length).map fun i =>
        scaleSumValue [f1, f2] [x b i, x c i])) b (m a)) := by
  rw [rangeForEach_eq]
  set new : ℕ → K := fun i => scaleSumValue [f1, f2] [x b i, x c i] with hnew
  obtain ⟨w, hw, hP⟩ := forM_range (fun i => callOp (scaleSumSwap2Op f1 f2) ((a :: [b, c]).map fun s => (s, i)))
    (fun i w => w = Function.update (Function.update m a (mixed new (m a) i)) b (mixed (x a) (m b) i))
    (m a).length m (by simp [mixed_zero]) (by
      rintro i w hi rfl
      set w := Function.update (Function.update m a (mixed new (m a) i)) b (mixed (x a) (m b) i) with hwdef
      have wa : w a = mixed new (m a) i := by rw [hwdef]; simp [Function.update_of_ne hab]
      have wb : w b = mixed (x a) (m b) i := by rw [hwdef]; simp
      have ra : (w a)[i]? = some (x a i) := by
        rw [wa, mixed_getElem?_ge _ _ (le_refl _)]; exact hx a (by simp) i hi
      have rb : (w b)[i]? = some (x b i) := by
        rw [wb, mixed_getElem?_ge _ _ (le_refl _)]; exact hx b (by simp) i hi
      have rc : (w c)[i]? = some (x c i) := by
        by_cases h1 : c = a
        · subst h1; exact ra
        · by_cases h2 : c = b
          · subst h2; exact rb
          · have : w c = m c := by rw [hwdef]; simp [Function.update_of_ne h1, Function.update_of_ne h2]
            rw [this]; exact hx c (by simp) i hi
      have la : i < (w a).length := by rw [wa, mixed_length _ _ hi.le]; exact hi
      have lb : i < (w b).length := by rw [wb, mixed_length _ _ (by omega)]; omega
      refine ⟨_, callOp_of (m' := Function.update (Function.update w a ((w a).set i (new i))) b
        ((w b).set i (x a i))) (regs := [x a i, x b i, x c i]) ?_, ?_⟩
      · have la' : i < (Function.update w a ((w a).set i (scaleSumValue [f1, f2] [x b i, x c i])) b).length := by
          rw [Function.update_of_ne hab.symm]; exact lb
        obtain ⟨_, ra'⟩ := List.getElem?_eq_some_iff.mp ra
        obtain ⟨_, rb'⟩ := List.getElem?_eq_some_iff.mp rb
        simp [callInstrs, scaleSumSwap2Op, runInstrs, Instr.exec, Action.exec, ra, rb, rc, la, lb, hnew,
          Function.update_of_ne hab.symm, ra', rb']
      · rw [wa, wb, mixed_set _ _ hi]
        have : (mixed (x a) (m b) i).set i (x a i) = mixed (x a) (m b) (i + 1) := mixed_set _ _ (by omega)
        rw [this, hwdef]
        funext s
        by_cases h2 : s = b
        · subst h2; simp
        · by_cases h1 : s = a
          · subst h1; simp [Function.update_of_ne hab]
          · simp [Function.update_of_ne h1, Function.update_of_ne h2])
  rw [hw, hP, mixed_all]
  congr 2
  rw [← hb, mixed_all]
  apply List.ext_getElem?
  intro i
  by_cases hi : i < (m a).length
  · rw [hx a (by simp) i hi]; simp [hb, hi]
  · simp [hb, hi]

/-- C43: the error functor of the controlled steppers: `for_each3( x_err , x_old , dxdt_old , rel_error( ... ) )`
computes the relative errors from the old components, whatever the aliasing. -/
theorem rel_error_for_each [Div K] (O : NumOps K) (epsAbs epsRel aX aDxdt : K) (e a d : ι) (m : Mem ι K)
    (x : ι → ℕ → K) (hx : ∀ s ∈ [e, a, d], ∀ i < (m e).length, (m s)[i]? = some (x s i)) :
    rangeForEach (relErrorOp O epsAbs epsRel aX aDxdt) e [a, d] m =
      .ok () (Function.update m e ((List.range (m e).length).map fun i =>
        relError O epsAbs epsRel aX aDxdt (x e i) (x a i) (x d i))) := by
  rw [rangeForEach_eq]
  set new : ℕ → K := fun i => relError O epsAbs epsRel aX aDxdt (x e i) (x a i) (x d i) with hnew
  obtain ⟨w, hw, hP⟩ := forM_range (fun i => callOp (relErrorOp O epsAbs epsRel aX aDxdt)
      ((e :: [a, d]).map fun s => (s, i)))
    (fun i w => w = Function.update m e (mixed new (m e) i)) (m e).length m (by simp [mixed_zero]) (by
      rintro i w hi rfl
      set w := Function.update m e (mixed new (m e) i) with hwdef
      have we : w e = mixed new (m e) i := by rw [hwdef]; simp
      have r : ∀ s ∈ [e, a, d], (w s)[i]? = some (x s i) := by
        intro s hs
        by_cases h1 : s = e
        · subst h1
          rw [we, mixed_getElem?_ge _ _ (le_refl _)]; exact hx _ hs i hi
        · rw [hwdef, Function.update_of_ne h1]; exact hx s hs i hi
      have re := r e (by simp)
      have ra := r a (by simp)
      have rd := r d (by simp)
      have le : i < (w e).length := by rw [we, mixed_length _ _ hi.le]; exact hi
      obtain ⟨_, re'⟩ := List.getElem?_eq_some_iff.mp re
      refine ⟨_, callOp_of (m' := Function.update w e ((w e).set i (new i))) (regs := [x e i, x a i, x d i]) ?_, ?_⟩
      · simp [callInstrs, relErrorOp, runInstrs, Instr.exec, Action.exec, re, ra, rd, le, hnew, re']
      · rw [we, mixed_set _ _ hi, hwdef, Function.update_idem])
  rw [hw, hP, mixed_all]

/-- C43: `copy( src , dst )` of a range to a range of the same size. -/
theorem copy_range (src dst : ι) (m : Mem ι K) (hlen : (m dst).length = (m src).length) :
    rangeCopy src dst m = .ok () (Function.update m dst (m src)) := by
  have hfe : rangeCopy src dst m = (List.range (m src).length).forM (fun i =>
      callOp [Action.load 0, .store 1 (fun v => v.headD (lit 0))] ((src :: [dst]).map fun c => (c, i))) m := by
    unfold rangeCopy
    have := forEachIter_eq (K := K) [Action.load 0, .store 1 (fun v => v.headD (lit 0))] src [dst] (m src).length
    exact congrFun this m
  rw [hfe]
  set new : ℕ → K := fun i => (m src).getD i (lit 0) with hnew
  obtain ⟨w, hw, hP⟩ := forM_range (fun i =>
      callOp [Action.load 0, .store 1 (fun v : List K => v.headD (lit 0))] ((src :: [dst]).map fun c => (c, i)))
    (fun i w => w = Function.update m dst (mixed new (m dst) i)) (m src).length m (by simp [mixed_zero]) (by
      rintro i w hi rfl
      set w := Function.update m dst (mixed new (m dst) i) with hwdef
      have wd : w dst = mixed new (m dst) i := by rw [hwdef]; simp
      have rs : (w src)[i]? = some (new i) := by
        by_cases h1 : src = dst
        · subst h1
          rw [wd, mixed_getElem?_ge _ _ (le_refl _)]; simp [hnew, hi]
        · rw [hwdef, Function.update_of_ne h1]; simp [hnew, hi]
      have ld : i < (w dst).length := by rw [wd, mixed_length _ _ (by omega)]; omega
      refine ⟨_, callOp_of (m' := Function.update w dst ((w dst).set i (new i))) (regs := [new i]) ?_, ?_⟩
      · obtain ⟨hh, rs'⟩ := List.getElem?_eq_some_iff.mp rs
        simp [callInstrs, runInstrs, Instr.exec, Action.exec, ld, rs', hh]
      · have : (mixed new (m dst) i).set i (new i) = mixed new (m dst) (i + 1) := mixed_set _ _ (by omega)
        rw [wd, this, hwdef, Function.update_idem])
  rw [hw, hP, ← hlen, mixed_all]
  congr 2
  apply List.ext_getElem?
  intro i
  by_cases hi : i < (m src).length
  · simp [hlen, hi, hnew]
  · simp [hlen, hi]

end Ops

/-! ## The primitives of the steppers' model -/

section Refine
variable {W : Type} [Add K] [Mul K] [IntCast K] {n : ℕ}

/-- The memory holds the states of the heap, as ranges of `n` components. -/
def Holds (m : Mem Loc K) (h : Heap K (Fin n → K) W) : Prop := ∀ l, m l = List.ofFn (h.state l)

theorem Holds.set {m : Mem Loc K} {h : Heap K (Fin n → K) W} (hm : Holds m h) (l : Loc) (v : Fin n → K) :
    Holds (Function.update m l (List.ofFn v)) (h.set l v) := by
  intro l'
  by_cases h1 : l' = l
  · subst h1; simp [Heap.set]
  · simp [Heap.set, Function.update_of_ne h1, hm l']

/-- The components of the state held at `l`. -/
def comp (h : Heap K (Fin n → K) W) (l : Loc) (i : ℕ) : K := if hi : i < n then h.state l ⟨i, hi⟩ else lit 0

theorem Holds.getElem? {m : Mem Loc K} {h : Heap K (Fin n → K) W} (hm : Holds m h) (l : Loc) {i : ℕ} (hi : i < n) :
    (m l)[i]? = some (comp h l i) := by
  rw [hm l]; simp [comp, hi]

theorem Holds.length {m : Mem Loc K} {h : Heap K (Fin n → K) W} (hm : Holds m h) (l : Loc) : (m l).length = n := by
  rw [hm l]; simp

theorem map_range_ofFn (g : ℕ → K) : (List.range n).map g = List.ofFn (fun i : Fin n => g i) := by
  apply List.ext_getElem?
  intro i
  by_cases hi : i < n <;> simp [hi]

/-- C43: the loop behind `linTo`: on a memory that holds the states, `for_each` with a `scale_sum` functor does
exactly what the model of the steppers assumes for `linTo`, for any destination and sources. -/
theorem linTo_refined (dst : Loc) (l : List (K × Loc)) (m : Mem Loc K)
    (h : Heap K (Fin n → K) W) (hm : Holds m h) :
    ∃ m' h', rangeForEach (scaleSumOp (l.map Prod.fst)) dst (l.map Prod.snd) m = .ok () m' ∧
      (@linTo K (Fin n → K) W StateOps.componentwise dst l) h = .ok () h' ∧ Holds m' h' := by
  refine ⟨_, _, scale_sum_for_each (l.map Prod.fst) dst (l.map Prod.snd) (by simp) m (comp h)
    (fun s _ i hi => hm.getElem? s (by rwa [hm.length] at hi)), rfl, ?_⟩
  have := hm.set dst (@lin K (Fin n → K) StateOps.componentwise (l.map fun p => (p.1, h.state p.2)))
  convert this using 2
  rw [hm.length, map_range_ofFn]
  congr 1
  funext i
  have hz : (l.map Prod.fst).zip ((l.map Prod.snd).map fun s => comp h s i) =
      l.map fun p => (p.1, h.state p.2 i) := by
    rw [List.map_map, List.zip_map']
    apply List.map_congr_left
    intro p _
    simp [comp]
  unfold scaleSumValue
  rw [hz]
  cases l with
  | nil => rfl
  | cons p ps =>
    show (ps.map _).foldl _ _ = (ps.map _).foldl _ _
    rw [List.foldl_map, List.foldl_map]

/-- C43: `copy` is `copyTo`. -/
theorem copyTo_refined (src dst : Loc) (m : Mem Loc K) (h : Heap K (Fin n → K) W) (hm : Holds m h) :
    ∃ m' h', rangeCopy src dst m = .ok () m' ∧ (copyTo src dst : StepM K (Fin n → K) W Unit) h = .ok () h' ∧
      Holds m' h' := by
  refine ⟨_, _, copy_range src dst m (by rw [hm.length, hm.length]), rfl, ?_⟩
  rw [hm src]; exact hm.set dst _

/-- C43: `for_each3` with `scale_sum_swap2` is `linSwap`. -/
theorem linSwap_refined (a b c : Loc) (hab : a ≠ b) (f1 f2 : K) (m : Mem Loc K) (h : Heap K (Fin n → K) W)
    (hm : Holds m h) :
    ∃ m' h', rangeForEach (scaleSumSwap2Op f1 f2) a [b, c] m = .ok () m' ∧
      (@linSwap K (Fin n → K) W StateOps.componentwise a b c f1 f2) h = .ok () h' ∧ Holds m' h' := by
  refine ⟨_, _, swap_for_each f1 f2 a b c hab m (comp h) (by rw [hm.length, hm.length])
    (fun s _ i hi => hm.getElem? s (by rwa [hm.length] at hi)), rfl, ?_⟩
  have := (hm.set a (@lin K (Fin n → K) StateOps.componentwise [(f1, h.state b), (f2, h.state c)])).set b (h.state a)
  convert this using 2
  · congr 1
    rw [hm.length, map_range_ofFn]
    congr 1
    funext i
    simp [scaleSumValue, comp]
    rfl
  · exact hm a

end Refine

/-! ## The norm -/

section Norm

/-- C43: `norm_inf` is the maximum of the absolute values of the components, and 0 for an empty state. -/
theorem norm_inf_spec (eps : ℝ) (l : List ℝ) :
    0 ≤ normInf (realOps eps) (lit 0) l ∧ (∀ v ∈ l, |v| ≤ normInf (realOps eps) (lit 0) l) ∧
      (normInf (realOps eps) (lit 0) l = 0 ∨ ∃ v ∈ l, normInf (realOps eps) (lit 0) l = |v|) ∧
      (l = [] → normInf (realOps eps) (lit 0) l = 0) := by
  have key : ∀ (l : List ℝ) (init : ℝ),
      init ≤ normInf (realOps eps) init l ∧ (∀ v ∈ l, |v| ≤ normInf (realOps eps) init l) ∧
      (normInf (realOps eps) init l = init ∨ ∃ v ∈ l, normInf (realOps eps) init l = |v|) := by
    intro l
    induction l with
    | nil => intro init; simp [normInf]
    | cons v vs ih =>
      intro init
      have hmax : (realOps eps).max init ((realOps eps).abs v) = max init |v| := by
        simp only [NumOps.max, realOps]
        by_cases h : init < |v|
        · simp [h, max_eq_right h.le]
        · simp [h, max_eq_left (not_lt.mp h)]
      rw [normInf, hmax]
      obtain ⟨h1, h2, h3⟩ := ih (max init |v|)
      refine ⟨le_trans (le_max_left _ _) h1, ?_, ?_⟩
      · intro u hu
        rcases List.mem_cons.mp hu with rfl | hu
        · exact le_trans (le_max_right _ _) h1
        · exact h2 u hu
      · rcases h3 with h3 | ⟨u, hu, h3⟩
        · rcases le_total init |v| with h | h
          · right; exact ⟨v, by simp, by rw [h3, max_eq_right h]⟩
          · left; rw [h3, max_eq_left h]
        · right; exact ⟨u, by simp [hu], h3⟩
  have h0 : (lit 0 : ℝ) = 0 := by simp [lit]
  rw [h0]
  obtain ⟨h1, h2, h3⟩ := key l 0
  exact ⟨h1, h2, h3, by rintro rfl; rfl⟩

/-- C43: components that are not a number (every comparison with their absolute value is false) are ignored by
`norm_inf`: the result is the norm of the other components. -/
theorem norm_inf_ignores_nan {K : Type} (O : NumOps K) (isNan : K → Bool)
    (hnan : ∀ v, isNan v = true → ∀ a, O.lt a (O.abs v) = false) (l : List K) (init : K) :
    normInf O init l = normInf O init (l.filter fun v => !isNan v) := by
  induction l generalizing init with
  | nil => rfl
  | cons v vs ih =>
    by_cases hv : isNan v = true
    · have : O.max init (O.abs v) = init := by simp [NumOps.max, hnan v hv init]
      rw [normInf, this, ih]; simp [hv]
    · rw [normInf, ih]; simp [hv, normInf]

/-- `fusion_algebra::norm_inf` (`OI/algebra/fusion_algebra.hpp:38-50,199-205`): `accumulate` with `fusion_maximum`,
which takes the absolute values of both arguments -/
def fusionNormInf {K : Type} [IntCast K] (O : NumOps K) (l : List K) : K :=
  l.foldl (fun t1 t2 => if O.lt (O.abs t1) (O.abs t2) then O.abs t2 else O.abs t1) (lit 0)

/-- C43: the norm of a fusion sequence is the same maximum. -/
theorem fusion_norm_inf_eq {K : Type} [IntCast K] (O : NumOps K) (h0 : O.abs (lit 0) = lit 0)
    (habs : ∀ v, O.abs (O.abs v) = O.abs v) (l : List K) : fusionNormInf O l = normInf O (lit 0) l := by
  have key : ∀ (l : List K) (init : K), O.abs init = init →
      l.foldl (fun t1 t2 => if O.lt (O.abs t1) (O.abs t2) then O.abs t2 else O.abs t1) init = normInf O init l := by
    intro l
    induction l with
    | nil => intro init _; rfl
    | cons v vs ih =>
      intro init hi
      rw [List.foldl_cons, normInf, ih _ (by split <;> simp [habs, hi])]
      rw [hi]; rfl
  exact key l _ h0

end Norm

/-! ## Concrete cases -/

/-- `x = 1 * x + 10 * k`, in place. -/
example : rangeForEach (scaleSumOp [(1 : ℤ), 10]) 0 [0, 1] (fun c : ℕ => if c = 0 then [1, 2, 3] else [4, 5, 6]) =
    .ok () (Function.update (fun c : ℕ => if c = 0 then [1, 2, 3] else [4, 5, 6]) 0 [41, 52, 63]) := by
  rw [scale_sum_for_each (ι := ℕ) [(1 : ℤ), 10] 0 [0, 1] rfl _
    (fun c i => if c = 0 then ([1, 2, 3] : List ℤ).getD i 0 else ([4, 5, 6] : List ℤ).getD i 0)]
  · rfl
  · intro s hs i hi
    have hi' : i < 3 := hi
    rcases List.mem_cons.mp hs with rfl | hs
    · interval_cases i <;> rfl
    · have : s = 1 := by simpa using hs
      subst this
      interval_cases i <;> rfl

/-- A source with two components and an output with three. -/
example : rangeForEach (scaleSumOp [(2 : ℤ)]) 0 [1] (fun c : ℕ => if c = 0 then [1, 2, 3] else [4, 5]) = .ub :=
  scale_sum_short_ub 2 0 1 (by decide) _ (by decide)

/-- The swap used by the midpoint method, with the third argument equal to the first one. -/
example : rangeForEach (scaleSumSwap2Op (1 : ℤ) 10) 0 [1, 0] (fun c : ℕ => if c = 0 then [1, 2] else [4, 5]) =
    .ok () (Function.update (Function.update (fun c : ℕ => if c = 0 then [1, 2] else [4, 5]) 0 [14, 25]) 1 [1, 2]) := by
  rw [swap_for_each (ι := ℕ) (1 : ℤ) 10 0 1 0 (by decide) _
    (fun c i => if c = 0 then ([1, 2] : List ℤ).getD i 0 else ([4, 5] : List ℤ).getD i 0) rfl]
  · rfl
  · intro s hs i hi
    have hi' : i < 2 := hi
    have : s = 0 ∨ s = 1 := by
      rcases List.mem_cons.mp hs with h | hs
      · exact Or.inl h
      · rcases List.mem_cons.mp hs with h | hs
        · exact Or.inr h
        · exact Or.inl (by simpa using hs)
    rcases this with rfl | rfl <;> interval_cases i <;> rfl

/-- A memory that holds states. -/
example : Holds (n := 2) (W := Unit) (fun _ => [(1 : ℤ), 2]) ⟨fun _ => ![1, 2], fun _ => 0, fun _ => false, fun _ => 0, ()⟩ := by
  intro l; rfl

end Verif
