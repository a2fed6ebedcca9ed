import Verif.Lemmas.DenseRk

/-!
# C34: `dense_output_runge_kutta` keeps current and previous state and time consistent

The stepper works with two state buffers (and two derivative buffers) and a flag.  The theorems say that every
sequence of calls behaves like an abstract machine on values (`Spec/DenseRk.lean`) that has no buffers.
-/

set_option linter.unusedSectionVars false

namespace Verif
variable {K V W α : Type}

/-! ## Any sequence of calls -/

/-- Correspondence of single calls carries over to sequences of calls. -/
theorem runSeq_allowed {H A C : Type} {R : H → A → Prop} {call : C → M H α} {spec : C → M A α}
    (hc : ∀ c h a, R h a → Allowed R (call c h) (spec c a)) :
    ∀ (cs : List C) (h : H) (a : A), R h a → Allowed R (runSeq call cs h) (runSeq spec cs a)
  | [], h, a, hR => .inr ⟨rfl, hR⟩
  | c :: cs, h, a, hR => by
    unfold runSeq
    rw [M.bind_apply, M.bind_apply]
    rcases hc c h a hR with hu | hs
    · rw [hu]; exact .inl rfl
    · cases h1 : call c h <;> cases h2 : spec c a <;> rw [h1, h2] at hs <;> try exact hs.elim
      · obtain ⟨rfl, hR'⟩ := hs
        simp only
        rw [M.bind_apply, M.bind_apply]
        rcases runSeq_allowed hc cs _ _ hR' with hu | hs
        · rw [hu]; exact .inl rfl
        · rename_i a h' a'
          cases h3 : runSeq call cs h' <;> cases h4 : runSeq spec cs a' <;> rw [h3, h4] at hs <;> try exact hs.elim
          · obtain ⟨rfl, hR''⟩ := hs; exact .inr ⟨rfl, hR''⟩
          · exact .inr hs
          · exact .inl rfl
          · exact .inr trivial
      · exact .inr hs
      · exact .inl rfl
      · exact .inr trivial

/-! ## The dense output stepper of a basic stepper -/

section
variable [Add K] [Sub K] [Mul K] [Div K] [Neg K] [IntCast K] [StateOps K V]

theorem current_ne_old (b : Bool) : getCurrent b ≠ getOld b := by
  cases b <;> simp [getCurrent, getOld, mX1, mX2]

/-- **C34** (any explicit stepper): `do_step` makes one step of the underlying stepper from the current state, returns
old and new time, and shifts the current to the previous state and time.  If the system function throws, the accessors
show the same as before. -/
theorem dense_do_step (s : ExplicitStepper K) (hs : s.WellFormed) (sys : Sys K V W) (h : Heap K V W) :
    let v := denseView h
    match (sys v.x v.t >>= fun k => s.recipe sys v.x k v.t v.dt) h.world with
    | .ok y w => ∃ h', denseDoStep s.impl sys h = .ok (v.t, v.t + v.dt) h' ∧ h'.world = w ∧
        denseView h' = ⟨y, v.t + v.dt, v.dt, v.x, v.t⟩ ∧ ∀ n, h'.state (.user n) = h.state (.user n)
    | .err e w => ∃ h', denseDoStep s.impl sys h = .err e h' ∧ h'.world = w ∧
        denseView h' = v ∧ ∀ n, h'.state (.user n) = h.state (.user n)
    | .ub => denseDoStep s.impl sys h = .ub
    | .div => denseDoStep s.impl sys h = .div := by
  intro v
  have hown : ∀ i, ¬ (Loc.priv .dense i).ownedBy stepOwners := by simp [Loc.ownedBy, stepOwners]
  have hcur : ¬ (getCurrent (h.flag mCurX1)).ownedBy stepOwners := by
    cases h.flag mCurX1 <;> exact hown _
  have hold : ¬ (getOld (h.flag mCurX1)).ownedBy stepOwners := by
    cases h.flag mCurX1 <;> exact hown _
  have H := doStep3_implements s hs sys (getCurrent (h.flag mCurX1)) (getOld (h.flag mCurX1)) (h.num mT) (h.num mDt) h hcur
  have prog : denseDoStep s.impl sys h =
      match doStep3 s.impl sys (getCurrent (h.flag mCurX1)) (h.num mT) (getOld (h.flag mCurX1)) (h.num mDt) h with
      | .ok _ h' => .ok (h'.num mT, h'.num mT + h'.num mDt)
          (((h'.putNum mTOld (h'.num mT)).putNum mT (h'.num mT + h'.num mDt)).putFlag mCurX1 (!h'.flag mCurX1))
      | .err e h' => .err e h'
      | .ub => .ub
      | .div => .div := by
    unfold denseDoStep getFlag getNum setNum toggleCurrentState getFlag setFlag
    simp only [M.bind_apply]
    cases doStep3 s.impl sys (getCurrent (h.flag mCurX1)) (h.num mT) (getOld (h.flag mCurX1)) (h.num mDt) h with
    | ok u h' => simp [Heap.putNum_num, mT, mTOld, mDt, M.pure_apply]
    | err => rfl
    | ub => rfl
    | div => rfl
  unfold Implements at H
  change match (sys (h.state (getCurrent (h.flag mCurX1))) (h.num mT) >>= fun k =>
    s.recipe sys (h.state (getCurrent (h.flag mCurX1))) k (h.num mT) (h.num mDt)) h.world with
    | .ok y w => _ | .err e w => _ | .ub => _ | .div => _
  cases hm : (sys (h.state (getCurrent (h.flag mCurX1))) (h.num mT) >>= fun k =>
    s.recipe sys (h.state (getCurrent (h.flag mCurX1))) k (h.num mT) (h.num mDt)) h.world with
  | ok y w =>
    rw [hm] at H
    obtain ⟨h', e1, e2, e3⟩ := H
    have f1 : h'.flag mCurX1 = h.flag mCurX1 := (e3 _ (hown 4)).2.2.1
    have n1 : h'.num mT = h.num mT := (e3 _ (hown 6)).2.1
    have n2 : h'.num mDt = h.num mDt := (e3 _ (hown 8)).2.1
    have s1 : h'.state (getOld (h.flag mCurX1)) = y := by simpa using (e3 _ hold).1
    have s2 : h'.state (getCurrent (h.flag mCurX1)) = h.state (getCurrent (h.flag mCurX1)) := by
      have := (e3 _ hcur).1
      simpa [Heap.set_state_ne _ _ (current_ne_old _)] using this
    rw [e1] at prog
    refine ⟨(((h'.putNum mTOld (h'.num mT)).putNum mT (h'.num mT + h'.num mDt)).putFlag mCurX1 (!h'.flag mCurX1)),
      ?_, e2, ?_, fun n => ?_⟩
    · rw [prog]; simp only [n1, n2]; rfl
    · simp only [denseView, currentState, currentTime, currentTimeStep, previousState, previousTime,
        Heap.putFlag_state, Heap.putFlag_num, Heap.putNum_state, f1, n1, n2,
        Heap.putFlag_flag_self, v]
      rw [DenseView.mk.injEq]
      refine ⟨?_, ?_, ?_, ?_, ?_⟩
      · rw [← s1]; cases h.flag mCurX1 <;> rfl
      · simp [Heap.putNum_num]
      · simpa [Heap.putNum_num, mT, mDt, mTOld] using n2
      · rw [← s2]; cases h.flag mCurX1 <;> rfl
      · simp [Heap.putNum_num, mT, mTOld]
    · have := (e3 (.user n) (ownedBy_user _ _)).1
      rw [Heap.setAll_cons, Heap.setAll_nil, Heap.set_state_ne] at this
      · exact this
      · cases h.flag mCurX1 <;> simp [getOld, mX1, mX2]
  | err e w =>
    rw [hm] at H
    obtain ⟨h', e1, e2, e3⟩ := H
    rw [e1] at prog
    refine ⟨h', prog, e2, ?_, fun n => (e3 (.user n) (ownedBy_user _ _) (by simp)).1⟩
    have f1 : h'.flag mCurX1 = h.flag mCurX1 := (e3 _ (hown 4) (by simp)).2.2.1
    simp only [denseView, currentState, currentTime, currentTimeStep, previousState, previousTime, f1, v,
      (e3 _ hcur (by simp)).1, (e3 _ hold (by simp)).1, (e3 mT (hown 6) (by simp)).2.1,
      (e3 mDt (hown 8) (by simp)).2.1, (e3 mTOld (hown 7) (by simp)).2.1]
  | ub => rw [hm] at H; rw [prog, H]
  | div => rw [hm] at H; rw [prog, H]

/-- `initialize` sets current state, time and step size, and nothing else. -/
theorem dense_initialize (x0 : ℕ) (t0 dt0 : K) (h : Heap K V W) : ∃ h', denseInit (.user x0) t0 dt0 h = .ok () h' ∧
    h'.world = h.world ∧
    denseView h' = ⟨h.state (.user x0), t0, dt0, (denseView h).xOld, (denseView h).tOld⟩ ∧
    h'.state mDxdt = h.state mDxdt ∧
    ∀ n, h'.state (.user n) = h.state (.user n) := by
  refine ⟨_, rfl, rfl, ?_, ?_, fun n => ?_⟩
  · simp only [denseView, currentState, currentTime, currentTimeStep, previousState, previousTime, Heap.putNum_num,
      Heap.putNum_state, Heap.putNum_flag, Heap.set_flag, Heap.set_num, Heap.set_state_self,
      Heap.set_state_ne _ _ (current_ne_old _).symm]
    simp [mT, mDt, mTOld]
  · simp only [Heap.putNum_state]
    rw [Heap.set_state_ne]
    cases h.flag mCurX1 <;> simp [getCurrent, mX1, mX2, mDxdt]
  · simp only [Heap.putNum_state]
    rw [Heap.set_state_ne]
    cases h.flag mCurX1 <;> simp [getCurrent, mX1, mX2]

/-- Every call on the dense output stepper of `euler` is the call on values. -/
theorem euler_dense_call (teq : K → K → Bool) (sys : Sys K V W) (c : DenseCall K) (h : Heap K V W) :
    SameRes (fun h a => eulerDense h = a) (eulerDenseCall teq sys c h) ((eulerDense h).call sys c) := by
  cases c with
  | init x0 t0 dt0 =>
    obtain ⟨h', e1, e2, e3, e4, e5⟩ := dense_initialize x0 t0 dt0 h
    unfold eulerDenseCall EulerDense.call
    dsimp only
    rw [M.bind_ok e1]
    refine ⟨rfl, ?_⟩
    simp only [eulerDense, e2, e3, e4, EulerDense.mk.injEq, and_true, true_and]
    exact funext e5
  | step =>
    have H := dense_do_step .euler trivial sys h
    unfold eulerDenseCall EulerDense.call
    dsimp only
    have hview : (eulerDense h).view = denseView h := rfl
    have hworld : (eulerDense h).world = h.world := rfl
    rw [M.bind_apply, hview, hworld]
    simp only [ExplicitStepper.recipe, eulerStep, M.bind_apply] at H
    cases hk : sys (denseView h).x (denseView h).t h.world with
    | ok k w =>
      rw [hk] at H
      simp only [M.pure_apply] at H
      obtain ⟨h', e1, e2, e3, e4⟩ := H
      rw [show denseDoStep eulerImpl sys h = _ from e1]
      refine ⟨rfl, ?_⟩
      simp only [eulerDense, e2, e3, EulerDense.mk.injEq, and_true, true_and]
      refine ⟨?_, funext e4⟩
      -- the slope
      have p1 : denseDoStep eulerImpl sys h = .ok ((denseView h).t, (denseView h).t + (denseView h).dt) h' := e1
      unfold denseDoStep getFlag getNum setNum toggleCurrentState getFlag setFlag doStep3 eulerImpl linTo callSys at p1
      have hk' : sys (h.state (getCurrent (h.flag mCurX1))) (h.num mT) h.world = .ok k w := hk
      simp only [M.bind_apply, hk', M.pure_apply, Res.ok.injEq] at p1
      rw [← p1.2]
      simp only [Heap.putFlag_state, Heap.putNum_state]
      rw [Heap.set_state_ne, Heap.put_state_self]
      cases h.flag mCurX1 <;> simp [getOld, mX1, mX2, mDxdt]
    | err e w =>
      rw [hk] at H
      simp only at H
      obtain ⟨h', e1, e2, e3, e4⟩ := H
      rw [show denseDoStep eulerImpl sys h = _ from e1]
      refine ⟨rfl, ?_⟩
      simp only [eulerDense, e2, e3, EulerDense.mk.injEq, and_true, true_and]
      refine ⟨?_, funext e4⟩
      have p1 : denseDoStep eulerImpl sys h = .err e h' := e1
      unfold denseDoStep getFlag getNum doStep3 callSys at p1
      have hk' : sys (h.state (getCurrent (h.flag mCurX1))) (h.num mT) h.world = .err e w := hk
      simp only [M.bind_apply, hk', Res.err.injEq] at p1
      rw [← p1.2]; rfl
    | ub => rw [hk] at H; rw [show denseDoStep eulerImpl sys h = _ from H]; trivial
    | div => rw [hk] at H; rw [show denseDoStep eulerImpl sys h = _ from H]; trivial
  | calcAt t x =>
    have hx : ∀ b, getOld b ≠ .user x ∧ getCurrent b ≠ .user x := by
      intro b; cases b <;> simp [getOld, getCurrent, mX1, mX2]
    have key : ∀ h₀ : Heap K V W, (∀ l, l ≠ .user x → h₀.state l = h.state l) → h₀.num = h.num → h₀.flag = h.flag →
        h₀.world = h.world →
        eulerDense (h₀.set (.user x) (lin [(lit 1, h₀.state (getOld (h.flag mCurX1))), (t - h.num mTOld, h₀.state mDxdt)])) =
          ⟨(eulerDense h).view, (eulerDense h).slope, Function.update (eulerDense h).user x
              (lin [(lit 1, (eulerDense h).view.xOld), (t - (eulerDense h).view.tOld, (eulerDense h).slope)]),
            (eulerDense h).world⟩ := by
      intro h₀ a1 a2 a3 a4
      rw [a1 _ (hx _).1, a1 mDxdt (by simp [mDxdt])]
      simp only [eulerDense, denseView, currentState, currentTime, currentTimeStep, previousState, previousTime,
        Heap.set_num, Heap.set_flag, Heap.set_world, a2, a3, a4,
        Heap.set_state_ne _ _ (hx _).1, Heap.set_state_ne _ _ (hx _).2, a1 _ (hx _).1, a1 _ (hx _).2,
        EulerDense.mk.injEq, true_and, and_true]
      refine ⟨?_, ?_⟩
      · rw [Heap.set_state_ne _ _ (by simp [mDxdt]), a1 mDxdt (by simp [mDxdt])]
      · funext n
        by_cases hn : n = x
        · subst hn; simp
        · rw [Heap.set_state_ne _ _ (by simpa using hn), a1 _ (by simpa using hn), Function.update_of_ne hn]
    unfold eulerDenseCall EulerDense.call denseCalcState eulerCalcState getFlag getNum linTo copyTo
    simp only [M.bind_apply]
    by_cases ht : teq t (h.num mT) = true
    · simp only [ht, if_true, M.pure_apply]
      refine ⟨rfl, key _ (fun l hl => Heap.set_state_ne _ _ hl) rfl rfl rfl⟩
    · simp only [ht, M.pure_apply, List.map]
      exact ⟨rfl, key h (fun _ _ => rfl) rfl rfl rfl⟩

/-- **C34** (`euler`): every sequence of calls of `initialize`, `do_step` and `calc_state` on the dense output stepper
gives the results, the accessor values, the contents of the user's objects and the exceptions of the sequence of calls
on values. -/
theorem euler_dense_history (teq : K → K → Bool) (sys : Sys K V W) (cs : List (DenseCall K)) (h : Heap K V W) :
    SameRes (fun h a => eulerDense h = a) (runSeq (eulerDenseCall teq sys) cs h)
      (runSeq (fun c a => a.call sys c) cs (eulerDense h)) := by
  induction cs generalizing h with
  | nil => exact ⟨rfl, rfl⟩
  | cons c cs ih =>
    unfold runSeq
    rw [M.bind_apply, M.bind_apply]
    have hc := euler_dense_call teq sys c h
    cases h1 : eulerDenseCall teq sys c h <;> cases h2 : (eulerDense h).call sys c <;> rw [h1, h2] at hc <;>
      try exact hc.elim
    · obtain ⟨rfl, rfl⟩ := hc
      simp only
      rw [M.bind_apply, M.bind_apply]
      rename_i r h'
      have := ih h'
      cases h3 : runSeq (eulerDenseCall teq sys) cs h' <;>
        cases h4 : runSeq (fun c a => EulerDense.call sys a c) cs (eulerDense h') <;> rw [h3, h4] at this <;>
        try exact this.elim
      · obtain ⟨rfl, h5⟩ := this; exact ⟨rfl, h5⟩
      · exact this
      · trivial
      · trivial
    · exact hc
    · trivial
    · trivial

end
end Verif
