import Verif.Lemmas.Observers
import Verif.Spec.Integrate
import Mathlib.Algebra.Order.Field.Rat
import Mathlib.Tactic.NormNum

/-!
# C16: observers only observe

The stepper is arbitrary: it may throw, have undefined behaviour, diverge and change its world `W`.
-/

namespace Verif
variable {Q W V V' S T : Type}

theorem view_id {α : Type} (r : Res W α) : r.view id = r := by cases r <;> rfl

/-- **C16** (plain steppers).  Running with any other non-throwing observer gives the same outcome:
same states, counts, times, exceptions, divergence and the same effects of the stepper. -/
theorem observer_irrelevant_basic (A : TimeArith T) (st : BasicStepper Q W S T)
    (o : S → T → V → V) (o' : S → T → V' → V') (w : W) (v : V) (v' : V')
    (q : Q) (x : S) (t0 t1 dt : T) (n : ℕ) (l : List T) :
    (integrateNStepsBasic A (st.lift V) (pureObserver o) q x t0 dt n (w, v)).view Prod.fst =
      (integrateNStepsBasic A (st.lift V') (pureObserver o') q x t0 dt n (w, v')).view Prod.fst ∧
    (integrateConstBasic A (st.lift V) (pureObserver o) q x t0 t1 dt (w, v)).view Prod.fst =
      (integrateConstBasic A (st.lift V') (pureObserver o') q x t0 t1 dt (w, v')).view Prod.fst ∧
    (integrateAdaptiveBasic A (st.lift V) (pureObserver o) q x t0 t1 dt (w, v)).view Prod.fst =
      (integrateAdaptiveBasic A (st.lift V') (pureObserver o') q x t0 t1 dt (w, v')).view Prod.fst ∧
    (integrateTimesBasic A (st.lift V) (pureObserver o) q x l dt (w, v)).view Prod.fst =
      (integrateTimesBasic A (st.lift V') (pureObserver o') q x l dt (w, v')).view Prod.fst :=
  basic_view A (Rv := fun _ _ => True) (g := Prod.fst) (g' := Prod.fst) (obs := pureObserver o)
    (obs' := pureObserver o') (fun _ _ _ _ => rfl)
    (fun _ _ _ _ _ _ => ⟨_, _, rfl, rfl, trivial⟩) trivial st q x t0 t1 dt n l

/-- **C16** (controlled steppers). -/
theorem observer_irrelevant_controlled (A : TimeArith T) (st : ControlledStepper Q W S T)
    (o : S → T → V → V) (o' : S → T → V' → V') (w : W) (v : V) (v' : V')
    (q : Q) (x : S) (t0 t1 dt : T) (n : ℕ) (l : List T) :
    (integrateNStepsControlled A (st.lift V) (pureObserver o) q x t0 dt n (w, v)).view Prod.fst =
      (integrateNStepsControlled A (st.lift V') (pureObserver o') q x t0 dt n (w, v')).view Prod.fst ∧
    (integrateConstControlled A (st.lift V) (pureObserver o) q x t0 t1 dt (w, v)).view Prod.fst =
      (integrateConstControlled A (st.lift V') (pureObserver o') q x t0 t1 dt (w, v')).view Prod.fst ∧
    (integrateAdaptiveControlled A (st.lift V) (pureObserver o) q x t0 t1 dt (w, v)).view Prod.fst =
      (integrateAdaptiveControlled A (st.lift V') (pureObserver o') q x t0 t1 dt (w, v')).view
        Prod.fst ∧
    (integrateTimesControlled A (st.lift V) (pureObserver o) q x l dt (w, v)).view Prod.fst =
      (integrateTimesControlled A (st.lift V') (pureObserver o') q x l dt (w, v')).view Prod.fst :=
  ctrl_view A (Rv := fun _ _ => True) (g := Prod.fst) (g' := Prod.fst) (obs := pureObserver o)
    (obs' := pureObserver o') (fun _ _ _ _ => rfl)
    (fun _ _ _ _ _ _ => ⟨_, _, rfl, rfl, trivial⟩) trivial st q x t0 t1 dt n l

/-- **C16** (dense output steppers). -/
theorem observer_irrelevant_dense (A : TimeArith T) (st : DenseStepper Q W S T)
    (o : S → T → V → V) (o' : S → T → V' → V') (w : W) (v : V) (v' : V')
    (q : Q) (x : S) (t0 t1 dt : T) (n : ℕ) (l : List T) :
    (integrateNStepsDense A (st.lift V) (pureObserver o) q x t0 dt n (w, v)).view Prod.fst =
      (integrateNStepsDense A (st.lift V') (pureObserver o') q x t0 dt n (w, v')).view Prod.fst ∧
    (integrateConstDense A (st.lift V) (pureObserver o) q x t0 t1 dt (w, v)).view Prod.fst =
      (integrateConstDense A (st.lift V') (pureObserver o') q x t0 t1 dt (w, v')).view Prod.fst ∧
    (integrateAdaptiveDense A (st.lift V) (pureObserver o) q x t0 t1 dt (w, v)).view Prod.fst =
      (integrateAdaptiveDense A (st.lift V') (pureObserver o') q x t0 t1 dt (w, v')).view Prod.fst ∧
    (integrateTimesDense A (st.lift V) (pureObserver o) q x l dt (w, v)).view Prod.fst =
      (integrateTimesDense A (st.lift V') (pureObserver o') q x l dt (w, v')).view Prod.fst :=
  dense_view A (Rv := fun _ _ => True) (g := Prod.fst) (g' := Prod.fst) (obs := pureObserver o)
    (obs' := pureObserver o') (fun _ _ _ _ => rfl)
    (fun _ _ _ _ _ _ => ⟨_, _, rfl, rfl, trivial⟩) trivial st q x t0 t1 dt n l

/-- **C16** (null observer).  The null observer is one of the observers above. -/
theorem null_observer_is_pure :
    (nullObserver : Observer (W × V) S T) = pureObserver (fun _ _ v => v) := rfl

/-- **C16** (observer collections call every observer once, in order, with the same arguments).
Observer `i` of the collection notes `(i, x, t)` in a common log. -/
theorem observer_collection_calls {I : Type} (l : List I) (x : S) (t : T) (log : List (I × S × T)) :
    observerCollection (l.map fun i => (fun x t log => .ok () (log ++ [(i, x, t)]) :
      Observer (List (I × S × T)) S T)) x t log = .ok () (log ++ l.map fun i => (i, x, t)) := by
  induction l generalizing log with
  | nil => simp [observerCollection, M.pure_apply]
  | cons i l ih =>
    have := ih (log ++ [(i, x, t)])
    rw [List.append_assoc] at this
    exact this

/-- **C16** (exception in a collection): if an observer throws, the earlier ones have been called and the
later ones have not. -/
theorem observer_collection_exception {I : Type} (l1 l2 : List I) (j : I) (bad : I → Option Err)
    (e : Err) (h1 : ∀ i ∈ l1, bad i = none) (hj : bad j = some e) (x : S) (t : T)
    (log : List (I × S × T)) :
    observerCollection ((l1 ++ j :: l2).map fun i => (fun x t log => match bad i with
        | none => .ok () (log ++ [(i, x, t)])
        | some e => .err e log : Observer (List (I × S × T)) S T)) x t log =
      .err e (log ++ l1.map fun i => (i, x, t)) := by
  induction l1 generalizing log with
  | nil =>
    simp only [List.nil_append, List.map_cons, List.map_nil, List.append_nil]
    show M.bind _ _ log = _
    simp [M.bind, hj]
  | cons i l ih =>
    have := ih (fun k hk => h1 k (by simp [hk])) (log ++ [(i, x, t)])
    rw [List.append_assoc] at this
    simp only [List.cons_append, List.map_cons]
    show M.bind _ _ log = _
    unfold M.bind
    simp only [h1 i (by simp)]
    exact this

/-- **C16** (observer collections).  Looking at observer `i` of a collection, the run cannot be told from
a run with observer `i` alone: it sees the same calls in the same order.  (Plain steppers.) -/
theorem observer_collection_basic (A : TimeArith T) (st : BasicStepper Q W S T) (m : ℕ)
    (o : Fin m → S → T → V → V) (i : Fin m) (w : W) (v : Fin m → V)
    (q : Q) (x : S) (t0 t1 dt : T) (n : ℕ) (l : List T) :
    let coll := observerCollection ((List.finRange m).map (slotObserver (W := W) o))
    let slot : W × (Fin m → V) → W × V := fun p => (p.1, p.2 i)
    (integrateNStepsBasic A (st.lift _) coll q x t0 dt n (w, v)).view slot =
      (integrateNStepsBasic A (st.lift V) (pureObserver (o i)) q x t0 dt n (w, v i)) ∧
    (integrateConstBasic A (st.lift _) coll q x t0 t1 dt (w, v)).view slot =
      (integrateConstBasic A (st.lift V) (pureObserver (o i)) q x t0 t1 dt (w, v i)) ∧
    (integrateAdaptiveBasic A (st.lift _) coll q x t0 t1 dt (w, v)).view slot =
      (integrateAdaptiveBasic A (st.lift V) (pureObserver (o i)) q x t0 t1 dt (w, v i)) ∧
    (integrateTimesBasic A (st.lift _) coll q x l dt (w, v)).view slot =
      (integrateTimesBasic A (st.lift V) (pureObserver (o i)) q x l dt (w, v i)) :=
  by
  have := basic_view A (Rv := fun (v : Fin m → V) v' => v i = v') (g := fun p => (p.1, p.2 i)) (g' := id)
    (obs := observerCollection ((List.finRange m).map (slotObserver (W := W) o)))
    (obs' := pureObserver (o i)) (w := w) (v := v) (fun _ _ _ h => by simp [h])
    (fun x t w v v' h => ⟨_, _, collection_apply o _ (List.nodup_finRange m) x t w v, rfl,
      by simp [h]⟩) rfl st q x t0 t1 dt n l
  simpa only [view_id] using this

/-- **C16** (observer collections, controlled steppers). -/
theorem observer_collection_controlled (A : TimeArith T) (st : ControlledStepper Q W S T) (m : ℕ)
    (o : Fin m → S → T → V → V) (i : Fin m) (w : W) (v : Fin m → V)
    (q : Q) (x : S) (t0 t1 dt : T) (n : ℕ) (l : List T) :
    let coll := observerCollection ((List.finRange m).map (slotObserver (W := W) o))
    let slot : W × (Fin m → V) → W × V := fun p => (p.1, p.2 i)
    (integrateNStepsControlled A (st.lift _) coll q x t0 dt n (w, v)).view slot =
      (integrateNStepsControlled A (st.lift V) (pureObserver (o i)) q x t0 dt n (w, v i)) ∧
    (integrateConstControlled A (st.lift _) coll q x t0 t1 dt (w, v)).view slot =
      (integrateConstControlled A (st.lift V) (pureObserver (o i)) q x t0 t1 dt (w, v i)) ∧
    (integrateAdaptiveControlled A (st.lift _) coll q x t0 t1 dt (w, v)).view slot =
      (integrateAdaptiveControlled A (st.lift V) (pureObserver (o i)) q x t0 t1 dt (w, v i)) ∧
    (integrateTimesControlled A (st.lift _) coll q x l dt (w, v)).view slot =
      (integrateTimesControlled A (st.lift V) (pureObserver (o i)) q x l dt (w, v i)) :=
  by
  have := ctrl_view A (Rv := fun (v : Fin m → V) v' => v i = v') (g := fun p => (p.1, p.2 i)) (g' := id)
    (obs := observerCollection ((List.finRange m).map (slotObserver (W := W) o)))
    (obs' := pureObserver (o i)) (w := w) (v := v) (fun _ _ _ h => by simp [h])
    (fun x t w v v' h => ⟨_, _, collection_apply o _ (List.nodup_finRange m) x t w v, rfl,
      by simp [h]⟩) rfl st q x t0 t1 dt n l
  simpa only [view_id] using this

/-- **C16** (observer collections, dense output steppers). -/
theorem observer_collection_dense (A : TimeArith T) (st : DenseStepper Q W S T) (m : ℕ)
    (o : Fin m → S → T → V → V) (i : Fin m) (w : W) (v : Fin m → V)
    (q : Q) (x : S) (t0 t1 dt : T) (n : ℕ) (l : List T) :
    let coll := observerCollection ((List.finRange m).map (slotObserver (W := W) o))
    let slot : W × (Fin m → V) → W × V := fun p => (p.1, p.2 i)
    (integrateNStepsDense A (st.lift _) coll q x t0 dt n (w, v)).view slot =
      (integrateNStepsDense A (st.lift V) (pureObserver (o i)) q x t0 dt n (w, v i)) ∧
    (integrateConstDense A (st.lift _) coll q x t0 t1 dt (w, v)).view slot =
      (integrateConstDense A (st.lift V) (pureObserver (o i)) q x t0 t1 dt (w, v i)) ∧
    (integrateAdaptiveDense A (st.lift _) coll q x t0 t1 dt (w, v)).view slot =
      (integrateAdaptiveDense A (st.lift V) (pureObserver (o i)) q x t0 t1 dt (w, v i)) ∧
    (integrateTimesDense A (st.lift _) coll q x l dt (w, v)).view slot =
      (integrateTimesDense A (st.lift V) (pureObserver (o i)) q x l dt (w, v i)) :=
  by
  have := dense_view A (Rv := fun (v : Fin m → V) v' => v i = v') (g := fun p => (p.1, p.2 i)) (g' := id)
    (obs := observerCollection ((List.finRange m).map (slotObserver (W := W) o)))
    (obs' := pureObserver (o i)) (w := w) (v := v) (fun _ _ _ h => by simp [h])
    (fun x t w v v' h => ⟨_, _, collection_apply o _ (List.nodup_finRange m) x t w v, rfl,
      by simp [h]⟩) rfl st q x t0 t1 dt n l
  simpa only [view_id] using this

/-- Non-vacuity: a run that does return, with two steps and three observations (`integrate_n_steps`,
counting observer), seen without and with the observer. -/
example :
    integrateNStepsBasic (TimeArith.exact ℚ 0)
        ((⟨fun q x _ dt w => .ok (q, x + dt) (w + 1)⟩ : BasicStepper Unit ℕ ℚ ℚ).lift ℕ)
        (pureObserver fun _ _ c => c + 1) () 0 0 (1/2) 2 (0, 0) = .ok (1, 1) (2, 3) := by
  norm_num [integrateNStepsBasic, nStepsBasicLoop, BasicStepper.lift, pureObserver, M.onFst,
    M.bind_apply, M.pure_apply, M.map_apply, TimeArith.exact]

end Verif
