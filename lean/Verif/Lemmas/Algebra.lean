import Verif.Model.Algebra
import Mathlib.Data.List.Basic

/-! # Lemmas about the component-wise loops -/

set_option linter.unusedSectionVars false

namespace Verif
variable {ι K : Type} [DecidableEq ι]

theorem runInstrs_append (l1 l2 : List (Instr ι K)) (s : Mem ι K × List K) :
    runInstrs (l1 ++ l2) s = runInstrs l1 s >>= runInstrs l2 := by
  induction l1 generalizing s with
  | nil => rfl
  | cons i is ih =>
    show (i.exec s >>= runInstrs (is ++ l2)) = ((i.exec s >>= runInstrs is) >>= runInstrs l2)
    cases i.exec s with
    | none => rfl
    | some s' => exact ih s'

theorem exec_load {refs : List (Cell ι)} {j : ℕ} {r : Cell ι} {m : Mem ι K} {regs : List K} {v : K}
    (hj : refs[j]? = some r) (hv : (m r.1)[r.2]? = some v) :
    (Instr.act refs (.load j)).exec (m, regs) = some (m, regs ++ [v]) := by
  simp [Instr.exec, Action.exec, hj, hv]

theorem exec_store {refs : List (Cell ι)} {j : ℕ} {r : Cell ι} {m : Mem ι K} {regs : List K} {f : List K → K}
    (hj : refs[j]? = some r) (hv : r.2 < (m r.1).length) :
    (Instr.act refs (.store j f)).exec (m, regs) =
      some (Function.update m r.1 ((m r.1).set r.2 (f regs)), regs) := by
  simp [Instr.exec, Action.exec, hj, hv]

/-- Loading consecutive arguments. -/
theorem runInstrs_loads {refs : List (Cell ι)} {m : Mem ι K} (x : ℕ → K) (n : ℕ) :
    ∀ (a : ℕ) (regs : List K),
      (∀ j, a ≤ j → j < a + n → ∃ r, refs[j + 1]? = some r ∧ (m r.1)[r.2]? = some (x j)) →
      runInstrs ((List.range' a n).map fun j => Instr.act refs (.load (j + 1))) (m, regs) =
        some (m, regs ++ (List.range' a n).map x) := by
  induction n with
  | zero => intro a regs _; simp [runInstrs]
  | succ n ih =>
    intro a regs h
    obtain ⟨r, hr, hv⟩ := h a (le_refl _) (by omega)
    rw [List.range'_succ, List.map_cons, runInstrs, exec_load hr hv]
    show runInstrs _ (m, regs ++ [x a]) = _
    rw [ih (a + 1) (regs ++ [x a]) (fun j h1 h2 => h j (by omega) (by omega))]
    simp

/-- A loop that preserves an invariant returns normally and establishes it. -/
theorem forM_range' {W : Type} (f : ℕ → M W Unit) (P : ℕ → W → Prop) (n : ℕ) :
    ∀ a w, P a w → (∀ i w, a ≤ i → i < a + n → P i w → ∃ w', f i w = .ok () w' ∧ P (i + 1) w') →
      ∃ w', (List.range' a n).forM f w = .ok () w' ∧ P (a + n) w' := by
  induction n with
  | zero => intro a w h _; exact ⟨w, rfl, h⟩
  | succ n ih =>
    intro a w h hstep
    obtain ⟨w1, e1, h1⟩ := hstep a w (le_refl _) (by omega) h
    obtain ⟨w2, e2, h2⟩ := ih (a + 1) w1 h1 (fun i w h1 h2 => hstep i w (by omega) (by omega))
    refine ⟨w2, ?_, by rw [show a + (n + 1) = a + 1 + n by omega]; exact h2⟩
    rw [List.range'_succ]
    show (f a >>= fun _ => (List.range' (a + 1) n).forM f) w = _
    rw [M.bind_ok e1]; exact e2

theorem forM_range {W : Type} (f : ℕ → M W Unit) (P : ℕ → W → Prop) (n : ℕ) (w : W) (h : P 0 w)
    (hstep : ∀ i w, i < n → P i w → ∃ w', f i w = .ok () w' ∧ P (i + 1) w') :
    ∃ w', (List.range n).forM f w = .ok () w' ∧ P n w' := by
  have := forM_range' f P n 0 w h (fun i w _ h2 => hstep i w (by omega))
  rw [Nat.zero_add] at this
  rw [List.range_eq_range']; exact this

/-- One iteration after the other: the iterator loop. -/
theorem forEachIter_eq (op : List (Action K)) (s1 : ι) (ss : List ι) (n : ℕ) :
    forEachIter op ((s1 :: ss).map fun c => (c, 0)) (s1, n) =
      (List.range n).forM fun i => callOp op ((s1 :: ss).map fun c => (c, i)) := by
  have key : ∀ k i, i + k = n →
      whileM (fun its : List (Cell ι) => decide (its.head? ≠ some (s1, n)))
        (fun its => do callOp op its; pure (its.map fun r => (r.1, r.2 + 1)))
        ((s1 :: ss).map fun c => (c, i)) =
      ((List.range' i k).forM fun i => callOp op ((s1 :: ss).map fun c => (c, i))) >>= fun _ =>
        pure ((s1 :: ss).map fun c => (c, n)) := by
    intro k
    induction k with
    | zero =>
      intro i hi
      have : i = n := by omega
      subst this
      rw [whileM_false (by simp)]; rfl
    | succ k ih =>
      intro i hi
      rw [whileM_true (by simp; omega), List.range'_succ]
      show _ = ((callOp op ((s1 :: ss).map fun c => (c, i)) >>= fun _ => (List.range' (i + 1) k).forM fun i =>
        callOp op ((s1 :: ss).map fun c => (c, i))) >>= fun _ => pure ((s1 :: ss).map fun c => (c, n)))
      rw [bind_assoc, bind_assoc]
      congr 1
      funext u
      rw [pure_bind, ← ih (i + 1) (by omega)]
      congr 1
      simp
  have h0 := key n 0 (by omega)
  unfold forEachIter
  rw [h0, bind_assoc]
  simp only [pure_bind, List.range_eq_range']
  exact bind_pure_unit

theorem rangeForEach_eq (op : List (Action K)) (s1 : ι) (ss : List ι) (m : Mem ι K) :
    rangeForEach op s1 ss m =
      (List.range (m s1).length).forM (fun i => callOp op ((s1 :: ss).map fun c => (c, i))) m := by
  unfold rangeForEach; rw [forEachIter_eq]

theorem arrayForEach_eq (dim : ℕ) (op : List (Action K)) (ss : List ι) :
    arrayForEach dim op ss = (List.range dim).forM fun i => callOp op (ss.map fun c => (c, i)) := by
  have key : ∀ k i, i + k = dim →
      whileM (fun i : ℕ => decide (i < dim))
        (fun i => do callOp op (ss.map fun c => (c, i)); pure (i + 1)) i =
      ((List.range' i k).forM fun i => callOp op (ss.map fun c => (c, i))) >>= fun _ => pure dim := by
    intro k
    induction k with
    | zero =>
      intro i hi
      have : i = dim := by omega
      subst this
      rw [whileM_false (by simp)]; rfl
    | succ k ih =>
      intro i hi
      rw [whileM_true (by simp; omega), List.range'_succ]
      show _ = ((callOp op (ss.map fun c => (c, i)) >>= fun _ => (List.range' (i + 1) k).forM fun i =>
        callOp op (ss.map fun c => (c, i))) >>= fun _ => pure dim)
      rw [bind_assoc, bind_assoc]
      congr 1
      funext u
      rw [pure_bind, ← ih (i + 1) (by omega)]
  have h0 := key dim 0 (by omega)
  unfold arrayForEach
  rw [h0, bind_assoc]
  simp only [pure_bind, List.range_eq_range']
  exact bind_pure_unit

/-- The contents of a container of which the first `i` components have been replaced. -/
def mixed (new : ℕ → K) (old : List K) (i : ℕ) : List K := (List.range i).map new ++ old.drop i

theorem mixed_zero (new : ℕ → K) (old : List K) : mixed new old 0 = old := by simp [mixed]

theorem mixed_all (new : ℕ → K) (old : List K) : mixed new old old.length = (List.range old.length).map new := by
  simp [mixed]

theorem mixed_length (new : ℕ → K) (old : List K) {i : ℕ} (h : i ≤ old.length) :
    (mixed new old i).length = old.length := by simp [mixed]; omega

theorem mixed_getElem?_ge (new : ℕ → K) (old : List K) {i j : ℕ} (h : i ≤ j) : (mixed new old i)[j]? = old[j]? := by
  rw [mixed, List.getElem?_append_right (by simpa using h), List.getElem?_drop]
  congr 1; simp; omega

theorem mixed_set (new : ℕ → K) (old : List K) {i : ℕ} (h : i < old.length) :
    (mixed new old i).set i (new i) = mixed new old (i + 1) := by
  have e : old.drop i = old[i] :: old.drop (i + 1) := List.drop_eq_getElem_cons h
  rw [mixed, mixed, List.set_append_right _ _ (by simp), List.range_succ, List.map_append]
  simp only [List.length_map, List.length_range, Nat.sub_self, List.append_assoc, List.map_cons, List.map_nil,
    List.cons_append, List.nil_append]
  rw [e]; rfl

end Verif
