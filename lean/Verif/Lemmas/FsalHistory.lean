import Verif.Lemmas.Fsal
import Verif.Spec.Fsal

set_option linter.unusedSectionVars false

namespace Verif
variable {K V : Type} [Add K] [Sub K] [Mul K] [Div K] [IntCast K] [StateOps K V]

theorem dopri5_val (f : V → K → V) (x k : V) (t dt : K) :
    ∃ r : Dopri5Result V, (∀ w, dopri5Step (countSys f) x k t dt w = .ok r (w + 6)) ∧ r.k7 = f r.x (t + dt) :=
  ⟨_, fun _ => rfl, rfl⟩

theorem prepare_run (f : V → K → V) (r : Bool) (x : ℕ) (t : K) (h : Heap K V ℕ) (hv : CacheValid f x t h) :
    ∃ h1, fsalPrepare r (countSys f) (ustate x) t h = .ok () h1 ∧
      h1.state mDxdt = f (h.state (ustate x)) t ∧ h1.flag mFirstCall = false ∧
      (∀ n, h1.state (ustate n) = h.state (ustate n)) ∧ ∀ n, h1.state (uerr n) = h.state (uerr n) := by
  unfold fsalPrepare getFlag
  rw [M.bind_apply]
  by_cases hc : (r || h.flag mFirstCall) = true
  · simp only [hc, if_true]
    refine ⟨(h.put mDxdt (f (h.state (ustate x)) t) (h.world + 1)).putFlag mFirstCall false, rfl, ?_, ?_, ?_, ?_⟩
    · simp
    · simp
    · intro n; simp [Heap.put_state_apply, mDxdt, ustate]
    · intro n; simp [Heap.put_state_apply, mDxdt, uerr]
  · simp only [hc, Bool.false_eq_true, if_false]
    simp only [Bool.or_eq_true, not_or, Bool.not_eq_true] at hc
    exact ⟨h, rfl, hv hc.2, hc.2, fun _ => rfl, fun _ => rfl⟩

theorem ustate_inj {a b : ℕ} : ustate a = ustate b ↔ a = b := by simp [ustate]
theorem uerr_inj {a b : ℕ} : uerr a = uerr b ↔ a = b := by simp [uerr]
theorem uerr_ne_ustate (a b : ℕ) : uerr a ≠ ustate b := by simp [ustate, uerr]; omega
theorem ustate_ne_uerr (a b : ℕ) : ustate a ≠ uerr b := by simp [ustate, uerr]; omega
theorem ustate_ne_uderiv (a b : ℕ) : ustate a ≠ uderiv b := by simp [ustate, uderiv]; omega
theorem uderiv_ne_ustate (a b : ℕ) : uderiv a ≠ ustate b := by simp [ustate, uderiv]; omega
theorem uerr_ne_uderiv (a b : ℕ) : uerr a ≠ uderiv b := by simp [uerr, uderiv]; omega
theorem ustate_ne_dxdt (a : ℕ) : ustate a ≠ mDxdt := by simp [ustate, mDxdt]
theorem uerr_ne_dxdt (a : ℕ) : uerr a ≠ mDxdt := by simp [uerr, mDxdt]
theorem uderiv_ne_dxdt (a : ℕ) : uderiv a ≠ mDxdt := by simp [uderiv, mDxdt]
theorem not_owned_ustate (os : List Owner) (a : ℕ) : ¬ (ustate a).ownedBy os := ownedBy_user _ _
theorem not_owned_uerr (os : List Owner) (a : ℕ) : ¬ (uerr a).ownedBy os := ownedBy_user _ _
theorem not_owned_uderiv (os : List Owner) (a : ℕ) : ¬ (uderiv a).ownedBy os := ownedBy_user _ _
theorem not_owned_dxdt : ¬ mDxdt.ownedBy [.rk] := by simp [mDxdt, Loc.ownedBy]
theorem not_owned_first : ¬ mFirstCall.ownedBy [.rk] := by simp [mFirstCall, Loc.ownedBy]

/-- a lookup among the user's objects -/
macro "ulookup" : tactic =>
  `(tactic| simp [Heap.set_state_apply, Heap.put_state_apply, ustate_inj, uerr_inj, uerr_ne_ustate, ustate_ne_uerr, ustate_ne_uderiv,
      uderiv_ne_ustate, uerr_ne_uderiv, ustate_ne_dxdt, uerr_ne_dxdt, uderiv_ne_dxdt, *])

/-- a step with the cached derivative, after the preparation -/
theorem impl_run (f : V → K → V) (x o : ℕ) (t dt : K) (v : V) : ∃ y, ∀ h : Heap K V ℕ,
    h.state (ustate x) = v → h.state mDxdt = f v t → h.flag mFirstCall = false →
    ∃ h', dopri5Impl (countSys f) (ustate x) mDxdt t (ustate o) mDxdt dt h = .ok () h' ∧
      (∀ n, h'.state (ustate n) = if n = o then y else h.state (ustate n)) ∧
      (∀ n, h'.state (uerr n) = h.state (uerr n)) ∧ CacheValid f o (t + dt) h' := by
  obtain ⟨r, hr, hk⟩ := dopri5_val f v (f v t) t dt
  refine ⟨r.x, fun h h1 h2 h3 => ?_⟩
  have H := dopri5_implements (countSys f) (ustate x) mDxdt (ustate o) mDxdt t dt h (not_owned_ustate _ _)
    not_owned_dxdt (not_owned_ustate _ _) not_owned_dxdt (ustate_ne_dxdt _)
  unfold Implements at H
  rw [h1, h2, hr] at H
  obtain ⟨h', a1, a2, a3⟩ := H
  simp only [Heap.setAll_cons, Heap.setAll_nil] at a3
  refine ⟨h', a1, fun n => ?_, fun n => ?_, fun _ => ?_⟩
  · rw [(a3 _ (not_owned_ustate _ n)).1]; ulookup
  · rw [(a3 _ (not_owned_uerr _ n)).1]; ulookup
  · rw [(a3 _ not_owned_dxdt).1, (a3 _ (not_owned_ustate _ o)).1]; ulookup

theorem errImpl_run (f : V → K → V) (x o er : ℕ) (t dt : K) (v : V) : ∃ y z, ∀ h : Heap K V ℕ,
    h.state (ustate x) = v → h.state mDxdt = f v t → h.flag mFirstCall = false →
    ∃ h', dopri5ErrImpl (countSys f) (ustate x) mDxdt t (ustate o) mDxdt dt (uerr er) h = .ok () h' ∧
      (∀ n, h'.state (ustate n) = if n = o then y else h.state (ustate n)) ∧
      (∀ n, h'.state (uerr n) = if n = er then z else h.state (uerr n)) ∧ CacheValid f o (t + dt) h' := by
  obtain ⟨r, hr, hk⟩ := dopri5_val f v (f v t) t dt
  refine ⟨r.x, dopri5Error (f v t) dt r, fun h h1 h2 h3 => ?_⟩
  have H := dopri5Err_implements (countSys f) (ustate x) mDxdt (ustate o) mDxdt (uerr er) t dt h
    (not_owned_ustate _ _) not_owned_dxdt (not_owned_ustate _ _) not_owned_dxdt (ustate_ne_dxdt _)
    (ustate_ne_dxdt _).symm
  unfold Implements at H
  rw [h1, h2, M.bind_apply, hr] at H
  simp only [M.pure_apply] at H
  obtain ⟨h', a1, a2, a3⟩ := H
  simp only [Heap.setAll_cons, Heap.setAll_nil] at a3
  have q1 := (uerr_ne_dxdt er).symm
  refine ⟨h', a1, fun n => ?_, fun n => ?_, fun _ => ?_⟩
  · rw [(a3 _ (not_owned_ustate _ n)).1]; ulookup
  · rw [(a3 _ (not_owned_uerr _ n)).1]; ulookup
  · rw [(a3 _ not_owned_dxdt).1, (a3 _ (not_owned_ustate _ o)).1]; ulookup

theorem given_run (f : V → K → V) (x o d d' : ℕ) (t dt : K) (v : V) : ∃ y, ∀ h : Heap K V ℕ,
    h.state (ustate x) = v → h.state (uderiv d) = f v t → h.flag mFirstCall = true →
    ∃ h', dopri5Impl (countSys f) (ustate x) (uderiv d) t (ustate o) (uderiv d') dt h = .ok () h' ∧
      (∀ n, h'.state (ustate n) = if n = o then y else h.state (ustate n)) ∧
      (∀ n, h'.state (uerr n) = h.state (uerr n)) ∧ CacheValid f o (t + dt) h' := by
  obtain ⟨r, hr, hk⟩ := dopri5_val f v (f v t) t dt
  refine ⟨r.x, fun h h1 h2 h3 => ?_⟩
  have H := dopri5_implements (countSys f) (ustate x) (uderiv d) (ustate o) (uderiv d') t dt h (not_owned_ustate _ _)
    (not_owned_uderiv _ _) (not_owned_ustate _ _) (not_owned_uderiv _ _) (ustate_ne_uderiv _ _)
  unfold Implements at H
  rw [h1, h2, hr] at H
  obtain ⟨h', a1, a2, a3⟩ := H
  simp only [Heap.setAll_cons, Heap.setAll_nil] at a3
  refine ⟨h', a1, fun n => ?_, fun n => ?_, fun hf => ?_⟩
  · rw [(a3 _ (not_owned_ustate _ n)).1]; ulookup
  · rw [(a3 _ (not_owned_uerr _ n)).1]; ulookup
  · rw [(a3 _ not_owned_first).2.2.1] at hf
    simp only [Heap.set_flag, h3] at hf; cases hf

/-- One call: the user's new states and errors depend only on the old ones, not on the cache. -/
theorem call_run (f : V → K → V) (c : FsalCall K V) (x : ℕ) (t : K) (s e : ℕ → V) : ∃ (S E : ℕ → V) (x' : ℕ) (t' : K),
    ∀ h : Heap K V ℕ, (∀ n, h.state (ustate n) = s n) → (∀ n, h.state (uerr n) = e n) → CacheValid f x t h →
      ∃ h', c.run f x t h = .ok (x', t') h' ∧ (∀ n, h'.state (ustate n) = S n) ∧
        (∀ n, h'.state (uerr n) = E n) ∧ CacheValid f x' t' h' := by
  cases c with
  | step r dt =>
    obtain ⟨y, hy⟩ := impl_run f x x t dt (s x)
    refine ⟨fun n => if n = x then y else s n, e, x, t + dt, fun h hs he hv => ?_⟩
    obtain ⟨h1, p1, p2, p3, p4, p5⟩ := prepare_run f r x t h hv
    obtain ⟨h', q1, q2, q3, q4⟩ := hy h1 ((p4 _).trans (hs x)) (by rw [p2, hs x]) p3
    refine ⟨h', ?_, fun n => ?_, fun n => ?_, q4⟩
    · simp only [FsalCall.run, fsalStep1, M.bind_apply, p1, q1, M.pure_apply]
    · rw [q2, (p4 _).trans (hs n)]
    · rw [q3, (p5 _).trans (he n)]
  | stepOut r o dt =>
    obtain ⟨y, hy⟩ := impl_run f x o t dt (s x)
    refine ⟨fun n => if n = o then y else s n, e, o, t + dt, fun h hs he hv => ?_⟩
    obtain ⟨h1, p1, p2, p3, p4, p5⟩ := prepare_run f r x t h hv
    obtain ⟨h', q1, q2, q3, q4⟩ := hy h1 ((p4 _).trans (hs x)) (by rw [p2, hs x]) p3
    refine ⟨h', ?_, fun n => ?_, fun n => ?_, q4⟩
    · simp only [FsalCall.run, fsalStep3, M.bind_apply, p1, q1, M.pure_apply]
    · rw [q2, (p4 _).trans (hs n)]
    · rw [q3, (p5 _).trans (he n)]
  | stepErr r dt er =>
    obtain ⟨y, z, hy⟩ := errImpl_run f x x er t dt (s x)
    refine ⟨fun n => if n = x then y else s n, fun n => if n = er then z else e n, x, t + dt,
      fun h hs he hv => ?_⟩
    obtain ⟨h1, p1, p2, p3, p4, p5⟩ := prepare_run f r x t h hv
    obtain ⟨h', q1, q2, q3, q4⟩ := hy h1 ((p4 _).trans (hs x)) (by rw [p2, hs x]) p3
    refine ⟨h', ?_, fun n => ?_, fun n => ?_, q4⟩
    · simp only [FsalCall.run, fsalStep5, M.bind_apply, p1, q1, M.pure_apply]
    · rw [q2, (p4 _).trans (hs n)]
    · rw [q3, (p5 _).trans (he n)]
  | stepOutErr r o dt er =>
    obtain ⟨y, z, hy⟩ := errImpl_run f x o er t dt (s x)
    refine ⟨fun n => if n = o then y else s n, fun n => if n = er then z else e n, o, t + dt,
      fun h hs he hv => ?_⟩
    obtain ⟨h1, p1, p2, p3, p4, p5⟩ := prepare_run f r x t h hv
    obtain ⟨h', q1, q2, q3, q4⟩ := hy h1 ((p4 _).trans (hs x)) (by rw [p2, hs x]) p3
    refine ⟨h', ?_, fun n => ?_, fun n => ?_, q4⟩
    · simp only [FsalCall.run, fsalStep7, M.bind_apply, p1, q1, M.pure_apply]
    · rw [q2, (p4 _).trans (hs n)]
    · rw [q3, (p5 _).trans (he n)]
  | stepGiven d dt =>
    obtain ⟨y, hy⟩ := given_run f x x d d t dt (s x)
    refine ⟨fun n => if n = x then y else s n, e, x, t + dt, fun h hs he hv => ?_⟩
    obtain ⟨h', q1, q2, q3, q4⟩ := hy ((h.put (uderiv d) (f (h.state (ustate x)) t) (h.world + 1)).putFlag
      mFirstCall true) (by ulookup) (by ulookup) (by simp)
    refine ⟨h', ?_, fun n => ?_, fun n => ?_, q4⟩
    · have e1 : callSys (countSys f) (ustate x) (uderiv d) t h =
          .ok () (h.put (uderiv d) (f (h.state (ustate x)) t) (h.world + 1)) := rfl
      simp only [FsalCall.run, fsalStep2, M.bind_apply, e1, setFlag, q1, M.pure_apply]
    · rw [q2]; ulookup
    · rw [q3]; ulookup
  | stepGivenOut d o d' dt =>
    obtain ⟨y, hy⟩ := given_run f x o d d' t dt (s x)
    refine ⟨fun n => if n = o then y else s n, e, o, t + dt, fun h hs he hv => ?_⟩
    obtain ⟨h', q1, q2, q3, q4⟩ := hy ((h.put (uderiv d) (f (h.state (ustate x)) t) (h.world + 1)).putFlag
      mFirstCall true) (by ulookup) (by ulookup) (by simp)
    refine ⟨h', ?_, fun n => ?_, fun n => ?_, q4⟩
    · have e1 : callSys (countSys f) (ustate x) (uderiv d) t h =
          .ok () (h.put (uderiv d) (f (h.state (ustate x)) t) (h.world + 1)) := rfl
      simp only [FsalCall.run, fsalStep4, M.bind_apply, e1, setFlag, q1, M.pure_apply]
    · rw [q2]; ulookup
    · rw [q3]; ulookup
  | init =>
    refine ⟨s, e, x, t, fun h hs he hv =>
      ⟨(h.put mDxdt (f (h.state (ustate x)) t) (h.world + 1)).putFlag mFirstCall false, rfl, ?_, ?_, ?_⟩⟩
    · intro n; ulookup
    · intro n; ulookup
    · intro _; ulookup
  | reset =>
    refine ⟨s, e, x, t, fun h hs he hv => ⟨h.putFlag mFirstCall true, rfl, hs, he, fun hf => ?_⟩⟩
    simp at hf
  | restart v t' =>
    refine ⟨fun n => if n = x then v else s n, e, x, t', fun h hs he hv =>
      ⟨(h.set (ustate x) v).putFlag mFirstCall true, rfl, ?_, ?_, fun hf => ?_⟩⟩
    · intro n; ulookup
    · intro n; ulookup
    · simp at hf
  | restartInit v t' =>
    refine ⟨fun n => if n = x then v else s n, e, x, t', fun h hs he hv =>
      ⟨((h.set (ustate x) v).put mDxdt (f ((h.set (ustate x) v).state (ustate x)) t') (h.world + 1)).putFlag
        mFirstCall false, rfl, ?_, ?_, ?_⟩⟩
    · intro n; ulookup
    · intro n; ulookup
    · intro _; ulookup

end Verif
