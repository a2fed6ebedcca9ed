import Verif.Props.Symplectic
import Verif.Spec.Verlet
import Verif.Lemmas.Multistep

/-!
# C39: velocity_verlet
-/

set_option linter.unusedSectionVars false
set_option linter.unusedSimpArgs false

namespace Verif

section memory
variable {K V W : Type} [Add K] [Sub K] [Mul K] [Div K] [IntCast K] [StateOps K V]

/-- The step with explicit accelerations computes the velocity Verlet formula, for every system function, in
every arithmetic, in place or out of place: coordinates and velocities may be updated in place
(`qout = qin`, `pout = pin`); the new acceleration must go to an object of its own. -/
theorem verlet_explicit (sys : Sys2 K V W) (qin pin ain qout pout aout : Loc) (t dt : K) (h : Heap K V W)
    (h1 : qout ≠ pin) (h2 : qout ≠ ain) (h3 : aout ≠ pin) (h4 : aout ≠ ain) (h5 : aout ≠ qout) (h6 : pout ≠ qout)
    (h7 : pout ≠ aout) :
    (∀ q' p' a' w, verletRecipe sys (h.state qin) (h.state pin) (h.state ain) t dt h.world = .ok (q', p', a') w →
      ∃ h', verletStep sys qin pin ain qout pout aout t dt h = .ok () h' ∧ h'.state qout = q' ∧ h'.state pout = p' ∧
        h'.state aout = a' ∧ h'.world = w ∧ (∀ l, l ≠ qout → l ≠ pout → l ≠ aout → h'.state l = h.state l) ∧
        h'.flag = h.flag) ∧
    (∀ e w, verletRecipe sys (h.state qin) (h.state pin) (h.state ain) t dt h.world = .err e w →
      ∃ h', verletStep sys qin pin ain qout pout aout t dt h = .err e h' ∧ h'.world = w ∧
        ∀ l, l ≠ qout → h'.state l = h.state l) := by
  unfold verletStep verletRecipe
  simp only [M.bind_apply, linTo, callSys2, List.map_cons, List.map_nil, Heap.set_state_self,
    Heap.set_state_ne _ _ h1.symm, Heap.set_world]
  cases hs : sys (lin [(lit 1, h.state qin), (lit 1 * dt, h.state pin), (frac 1 2 * dt * dt, h.state ain)])
      (h.state pin) (t + dt) h.world with
  | ok a w =>
    refine ⟨fun q' p' a' w' e => ?_, fun e w' he => by simp [M.pure_apply] at he⟩
    simp only [M.pure_apply, Res.ok.injEq, Prod.mk.injEq] at e
    obtain ⟨⟨rfl, rfl, rfl⟩, rfl⟩ := e
    refine ⟨_, rfl, ?_, ?_, ?_, rfl, ?_, rfl⟩
    · rw [Heap.set_state_ne _ _ h6.symm, Heap.put_state_ne _ _ _ h5.symm, Heap.set_state_self]
    · rw [Heap.set_state_self, Heap.put_state_ne _ _ _ h3.symm, Heap.put_state_ne _ _ _ h4.symm,
        Heap.put_state_self, Heap.set_state_ne _ _ h1.symm, Heap.set_state_ne _ _ h2.symm]
    · rw [Heap.set_state_ne _ _ h7.symm, Heap.put_state_self]
    · intro l l1 l2 l3
      rw [Heap.set_state_ne _ _ l2, Heap.put_state_ne _ _ _ l3, Heap.set_state_ne _ _ l1]
  | err e w =>
    refine ⟨fun _ _ _ _ he => by simp at he, fun e' w' he => ?_⟩
    simp only [Res.err.injEq] at he
    obtain ⟨rfl, rfl⟩ := he
    exact ⟨_, rfl, rfl, fun l l1 => Heap.set_state_ne _ _ l1⟩
  | ub => exact ⟨fun _ _ _ _ he => by simp at he, fun _ _ he => by simp at he⟩
  | div => exact ⟨fun _ _ _ _ he => by simp at he, fun _ _ he => by simp at he⟩

/-- Non-vacuity: the call the stepper makes itself, in place. -/
example (b : Bool) : uq ≠ up ∧ uq ≠ currentAcc b ∧ oldAcc b ≠ up ∧ oldAcc b ≠ currentAcc b ∧ oldAcc b ≠ uq ∧
    up ≠ uq ∧ up ≠ oldAcc b := by cases b <;> decide

/-- One call keeps the invariant and does what it should. -/
theorem verlet_call (a : V → K → V) (c : VerletCall K V) (t : K) (h : Heap K V ℕ) (hv : AccValid a t h) :
    ∃ h', c.run a t h = .ok (c.value a (h.state uq, h.state up, t)).2.2 h' ∧
      (h'.state uq, h'.state up, (c.value a (h.state uq, h.state up, t)).2.2) =
        c.value a (h.state uq, h.state up, t) ∧
      AccValid a (c.value a (h.state uq, h.state up, t)).2.2 h' := by
  have n1 : ∀ b, uq ≠ currentAcc b := by intro b; cases b <;> decide
  have n2 : ∀ b, up ≠ currentAcc b := by intro b; cases b <;> decide
  have n3 : uq ≠ ua := by decide
  have n4 : up ≠ ua := by decide
  have init : ∀ (t : K) (g : Heap K V ℕ), ∃ g', verletInitialize (countAcc a) uq up t g = .ok () g' ∧
      g'.state uq = g.state uq ∧ g'.state up = g.state up ∧ g'.flag mVerletFirst = false ∧
      g'.state (currentAcc (g'.flag mCurrentA1)) = a (g.state uq) t := by
    intro t g
    refine ⟨(g.put (currentAcc (g.flag mCurrentA1)) (a (g.state uq) t) (g.world + 1)).putFlag mVerletFirst false,
      rfl, ?_, ?_, ?_, ?_⟩
    · simp [Heap.putFlag, Heap.put_state_ne _ _ _ (n1 _)]
    · simp [Heap.putFlag, Heap.put_state_ne _ _ _ (n2 _)]
    · simp [Heap.putFlag]
    · have : (Function.update g.flag mVerletFirst false) mCurrentA1 = g.flag mCurrentA1 := by
        rw [Function.update_of_ne (by decide)]
      simp [Heap.putFlag, this]
  cases c with
  | step r dt =>
    have prep : ∃ g, (do if r || (← getFlag mVerletFirst) then verletInitialize (countAcc a) uq up t :
        StepM K V ℕ Unit) h = .ok () g ∧ g.state uq = h.state uq ∧ g.state up = h.state up ∧
        g.flag mVerletFirst = false ∧ g.state (currentAcc (g.flag mCurrentA1)) = a (h.state uq) t := by
      rw [M.bind_apply]
      simp only [getFlag]
      by_cases hc : (r || h.flag mVerletFirst) = true
      · simp only [hc, if_true]; exact init t h
      · simp only [hc, if_false]
        have hf : h.flag mVerletFirst = false := by simp at hc; exact hc.2
        exact ⟨h, rfl, rfl, rfl, hf, hv hf⟩
    obtain ⟨g, g1, g2, g3, g4, g5⟩ := prep
    have H := (verlet_explicit (countAcc a) uq up (currentAcc (g.flag mCurrentA1)) uq up
      (oldAcc (g.flag mCurrentA1)) t dt g (by decide) (n1 _) (by cases g.flag mCurrentA1 <;> decide)
      (by cases g.flag mCurrentA1 <;> decide) (by cases g.flag mCurrentA1 <;> decide) (by decide)
      (by cases g.flag mCurrentA1 <;> decide)).1 _ _ _ _ rfl
    obtain ⟨h', a1, a2, a3, a4, a5, a6, a7⟩ := H
    refine ⟨h'.putFlag mCurrentA1 (!(g.flag mCurrentA1)), ?_, ?_, ?_⟩
    · have e : verletDoStep r (countAcc a) uq up t dt h =
          .ok () (h'.putFlag mCurrentA1 (!(g.flag mCurrentA1))) := by
        have e0 : verletDoStep r (countAcc a) uq up t dt h =
          ((do if r || (← getFlag mVerletFirst) then verletInitialize (countAcc a) uq up t :
            StepM K V ℕ Unit) >>= fun _ => do
              let b ← getFlag mCurrentA1
              verletStep (countAcc a) uq up (currentAcc b) uq up (oldAcc b) t dt
              setFlag mCurrentA1 (!b)) h := by
          unfold verletDoStep
          simp only [M.bind_apply, getFlag]
          split <;> rfl
        rw [e0, M.bind_ok g1, M.bind_apply]
        simp only [getFlag]
        rw [M.bind_ok a1]
        rfl
      simp only [VerletCall.run, M.bind_apply, e]
      rfl
    · simp only [VerletCall.value, verletValue, Heap.putFlag, a2, a3, g2, g3, g5]
    · intro _
      have f1 : (Function.update h'.flag mCurrentA1 (!(g.flag mCurrentA1))) mCurrentA1 = !(g.flag mCurrentA1) := by
        simp
      have f2 : currentAcc (!(g.flag mCurrentA1)) = oldAcc (g.flag mCurrentA1) := by
        cases g.flag mCurrentA1 <;> rfl
      simp only [Heap.putFlag, f1, f2, a4, a2, VerletCall.value]
  | init =>
    obtain ⟨g', b1, b2, b3, b4, b5⟩ := init t h
    refine ⟨g', ?_, ?_, fun _ => by rw [b5, b2]; rfl⟩
    · simp only [VerletCall.run, M.bind_apply, b1]; rfl
    · simp only [VerletCall.value, b2, b3]
  | initAcc =>
    refine ⟨((h.put ua (a (h.state uq) t) (h.world + 1)).set (currentAcc (h.flag mCurrentA1))
      (a (h.state uq) t)).putFlag mVerletFirst false, ?_, ?_, ?_⟩
    · simp only [VerletCall.run, M.bind_apply, callSys2, countAcc, verletInitializeAcc, getFlag, copyTo, setFlag,
        M.pure_apply, Heap.put_state_self]
      rfl
    · simp [VerletCall.value, Heap.putFlag, Heap.set_state_ne _ _ (n1 _), Heap.put_state_ne _ _ _ n3,
        Heap.set_state_ne _ _ (n2 _), Heap.put_state_ne _ _ _ n4]
    · intro _
      have : (Function.update h.flag mVerletFirst false) mCurrentA1 = h.flag mCurrentA1 := by
        rw [Function.update_of_ne (by decide)]
      simp [Heap.putFlag, this, Heap.set_state_ne _ _ (n1 _), Heap.put_state_ne _ _ _ n3, VerletCall.value]
  | reset =>
    refine ⟨h.putFlag mVerletFirst true, rfl, rfl, fun hf => ?_⟩
    simp [Heap.putFlag] at hf
  | restart q p t' =>
    refine ⟨((h.set uq q).set up p).putFlag mVerletFirst true, rfl, ?_, fun hf => ?_⟩
    · simp [VerletCall.value, Heap.putFlag, Heap.set_state_ne _ _ (show uq ≠ up by decide)]
    · simp [Heap.putFlag] at hf
  | restartInit q p t' =>
    obtain ⟨g', b1, b2, b3, b4, b5⟩ := init t' ((h.set uq q).set up p)
    have u1 : ((h.set uq q).set up p).state uq = q := by
      rw [Heap.set_state_ne _ _ (show uq ≠ up by decide), Heap.set_state_self]
    refine ⟨g', ?_, ?_, fun _ => by rw [b5, b2]; rfl⟩
    · simp only [VerletCall.run, M.bind_apply, b1]; rfl
    · rw [b2, b3, u1, Heap.set_state_self]; rfl

/-- C39: for every acceleration that does not depend on the velocity, every history of calls and every arithmetic,
coordinates, velocities and times are those of steps that evaluate both accelerations themselves: the cached
acceleration cannot be noticed.  A new stepper has `m_first_call = true`, for which `AccValid` holds
trivially. -/
theorem verlet_history (a : V → K → V) (l : List (VerletCall K V)) : ∀ (t : K) (h : Heap K V ℕ), AccValid a t h →
    ∃ h', runVerlet a t l h = .ok (verletTrace a (h.state uq, h.state up, t) l) h' := by
  induction l with
  | nil => intro t h _; exact ⟨h, rfl⟩
  | cons c cs ih =>
    intro t h hv
    obtain ⟨h', a1, a2, a3⟩ := verlet_call a c t h hv
    obtain ⟨h'', b1⟩ := ih _ h' a3
    refine ⟨h'', ?_⟩
    simp only [runVerlet, M.bind_apply, a1, b1, verletTrace]
    rw [a2]
    rfl

/-- A new stepper satisfies the hypothesis. -/
example (a : V → K → V) (t : K) (h : Heap K V ℕ) : AccValid a t (h.putFlag mVerletFirst true) := by
  intro hf; simp [Heap.putFlag] at hf

/-- What the cache is for: `n` consecutive steps evaluate the acceleration `n + 1` times (`n` times if the stepper
has been initialised). -/
theorem verlet_evaluations (a : V → K → V) (dt : K) (n : ℕ) : ∀ (t : K) (h : Heap K V ℕ),
    ∃ tr h', runVerlet a t (List.replicate n (.step false dt)) h = .ok tr h' ∧
      h'.world = h.world + n + (if h.flag mVerletFirst ∧ 0 < n then 1 else 0) := by
  induction n with
  | zero => intro t h; exact ⟨[], h, rfl, by simp⟩
  | succ n ih =>
    intro t h
    have key : ∃ h1, (VerletCall.step false dt : VerletCall K V).run a t h = .ok (t + dt) h1 ∧
        h1.flag mVerletFirst = false ∧ h1.world = h.world + 1 + (if h.flag mVerletFirst then 1 else 0) := by
      simp only [VerletCall.run, verletDoStep, M.bind_apply, getFlag]
      by_cases hc : h.flag mVerletFirst = true
      · simp only [hc, Bool.or_true, if_true]
        refine ⟨_, rfl, ?_, ?_⟩
        · simp [Heap.putFlag, Function.update_of_ne (show mVerletFirst ≠ mCurrentA1 by decide)]
        · simp [Heap.putFlag]
      · simp only [hc, Bool.or_self, Bool.false_eq_true, if_false]
        refine ⟨_, rfl, ?_, ?_⟩
        · simpa [Heap.putFlag, Function.update_of_ne (show mVerletFirst ≠ mCurrentA1 by decide)] using hc
        · simp [Heap.putFlag]
    obtain ⟨h1, k1, k2, k3⟩ := key
    obtain ⟨tr, h', c1, c2⟩ := ih (t + dt) h1
    refine ⟨(h1.state uq, h1.state up, t + dt) :: tr, h', ?_, ?_⟩
    · simp only [List.replicate_succ, runVerlet, M.bind_apply, k1, c1, M.pure_apply]
    · rw [c2, k2, k3]
      by_cases hc : h.flag mVerletFirst = true <;> simp [hc] <;> omega

theorem verletMap_eq (a : V → K → V) (t dt : K) (z : V × V) :
    verletMap a t dt z = verletValue a z.1 z.2 t dt := rfl

end memory

section exact
variable {K V : Type} [Field K] [AddCommGroup V] [Module K V]

/-- The velocity Verlet step is a half kick, a drift and a half kick. -/
theorem verlet_composition (a : V → K → V) (t dt : K) (z : V × V) :
    verletMap a t dt z =
      kick (fun q => a q (t + dt)) (1 / 2 * dt) (drift id dt (kick (fun q => a q t) (1 / 2 * dt) z)) := by
  rw [verletMap_eq]
  simp only [verletValue, lin, lit, frac, kick, drift, List.map_cons, List.map_nil, List.sum_cons, List.sum_nil,
    Int.cast_one, one_smul, one_mul, add_zero, id, Int.cast_ofNat]
  have e : z.1 + (dt • z.2 + (1 / 2 * dt * dt) • a z.1 t) = z.1 + dt • (z.2 + (1 / 2 * dt) • a z.1 t) := by module
  rw [e, add_assoc]

/-- C39: a step with `dt` followed by a step with `-dt` restores coordinates and velocities exactly, also if the
acceleration depends on the time. -/
theorem verlet_reversible (a : V → K → V) (t dt : K) (z : V × V) :
    verletMap a (t + dt) (-dt) (verletMap a t dt z) = z := by
  rw [verlet_composition, verlet_composition]
  have e1 : t + dt + -dt = t := by ring
  have e2 : 1 / 2 * -dt = -(1 / 2 * dt) := by ring
  rw [e1, e2, kick_neg_kick, drift_neg_drift, kick_neg_kick]

/-- C39: stepping along any list of step sizes and then back along the reversed list, with one stepper that
keeps its cached acceleration, returns to the start. -/
theorem verlet_run_reversible (a : V → K → V) (dts : List K) (h : Heap K V ℕ) (t : K) (hv : AccValid a t h)
    (hd : dts ≠ []) :
    ∃ tr h', runVerlet a t ((dts.map fun d => .step false d) ++ (dts.reverse.map fun d => .step false (-d))) h =
      .ok tr h' ∧ tr.getLast? = some (h.state uq, h.state up, t) := by
  obtain ⟨h', e⟩ := verlet_history a ((dts.map fun d => .step false d) ++
    (dts.reverse.map fun d => .step false (-d))) t h hv
  refine ⟨_, h', e, ?_⟩
  have run : ∀ (l : List (VerletCall K V)) (s : V × V × K), l ≠ [] →
      (verletTrace a s l).getLast? = some (l.foldl (fun s c => c.value a s) s) := by
    intro l
    induction l with
    | nil => intro s h; exact absurd rfl h
    | cons c cs ih =>
      intro s _
      cases cs with
      | nil => rfl
      | cons c' cs' =>
        rw [verletTrace, List.foldl_cons, ← ih _ (by simp)]
        simp [verletTrace]
  rw [run _ _ (by simp [hd]), List.foldl_append]
  congr 1
  clear e hd run
  generalize (h.state uq, h.state up, t) = s
  clear hv
  induction dts generalizing s with
  | nil => rfl
  | cons d ds ih =>
    simp only [List.map_cons, List.foldl_cons, List.reverse_cons, List.map_append, List.foldl_append, ih,
      List.map_nil, List.foldl_nil]
    obtain ⟨q, p, t⟩ := s
    have := verlet_reversible a t d (q, p)
    rw [verletMap_eq, verletMap_eq] at this
    simp only [VerletCall.value]
    rw [this]
    simp

/-- For a constant acceleration the step is exact (uniformly accelerated motion). -/
theorem verlet_exact_constant [CharZero K] (g : V) (t dt : K) (z : V × V) :
    verletMap (fun _ _ => g) t dt z = (z.1 + dt • z.2 + (dt ^ 2 / 2) • g, z.2 + dt • g) := by
  rw [verletMap_eq]
  simp only [verletValue, lin, lit, frac, List.map_cons, List.map_nil, List.sum_cons, List.sum_nil,
    Int.cast_one, one_smul, one_mul, add_zero, Int.cast_ofNat, Prod.mk.injEq]
  constructor <;> module

end exact

section symplectic
variable {E : Type} [NormedAddCommGroup E] [InnerProductSpace ℝ E] [CompleteSpace E]

/-- C39: for a potential force `a(q,t) = - grad U_t(q)` the step is symplectic. -/
theorem verlet_symplectic (U : ℝ → E → ℝ) (hU : ∀ t, ContDiff ℝ 2 (U t)) (t dt : ℝ) :
    IsSymplectic (verletMap (fun q t => - gradient (U t) q) t dt) := by
  have hk : ∀ t s : ℝ, IsSymplectic (kick (fun q => - gradient (U t) q) s) := by
    intro t s
    refine isSymplectic_kick s fun x => ?_
    obtain ⟨d, e⟩ := gradient_symmetric (hU t) x
    refine ⟨d.neg, fun u v => ?_⟩
    rw [fderiv_fun_neg]
    simp only [neg_apply, inner_neg_left, inner_neg_right, e u v]
  have hd : IsSymplectic (drift (id : E → E) dt) := by
    refine isSymplectic_drift dt fun x => ⟨differentiableAt_id, fun u v => by simp⟩
  have e : verletMap (fun q t => - gradient (U t) q) t dt = _ :=
    funext fun z => verlet_composition (fun q t => - gradient (U t) q) t dt z
  rw [e]
  exact (hk (t + dt) _).comp (hd.comp (hk t _))

end symplectic

/-! ## Where it fails -/

/-- The hypothesis of C39 is needed: for an acceleration that depends on the velocity (`a = v`) the cached
acceleration was evaluated with the velocity before the step, and two steps differ from two steps with a
`reset()` in between. -/
theorem verlet_velocity_dependent :
    ∃ (sys : Sys2 ℚ ℚ Unit) (h₁ h₂ : Heap ℚ ℚ Unit),
      (do verletDoStep false sys uq up 0 1; verletDoStep false sys uq up 1 1) (phaseHeap (0, 1)) = .ok () h₁ ∧
      (do verletDoStep false sys uq up 0 1; verletReset; verletDoStep false sys uq up 1 1) (phaseHeap (0, 1)) =
        .ok () h₂ ∧
      h₁.state uq ≠ h₂.state uq := by
  refine ⟨fun _ p _ => pure p, _, _, rfl, rfl, ?_⟩
  simp [Heap.putFlag, Heap.set_state_apply, Heap.put_state_apply, phaseHeap, lin, lit, frac, mA1, mA2, uq, up,
    currentAcc, oldAcc, mCurrentA1, mVerletFirst]

/-- An acceleration that throws in the `n`-th evaluation and is constant otherwise. -/
def throwsOnce (n : ℕ) (g : ℚ) : Sys2 ℚ ℚ ℕ := fun _ _ _ w => if w = n then .err (.user 0) (w + 1) else .ok g (w + 1)

/-- If the acceleration throws during `do_step`, the coordinates have already been moved and the velocities have
not: the step cannot be repeated.  (Compare C49.) -/
theorem verlet_exception_unsafe :
    ∃ h' : Heap ℚ ℚ ℕ, verletDoStep false (throwsOnce 1 2) uq up 0 1
        ⟨fun l => if l = up then 1 else 0, fun _ => 0, fun _ => true, fun _ => 0, 0⟩ = .err (.user 0) h' ∧
      h'.state uq = 2 ∧ h'.state up = 1 := by
  refine ⟨_, rfl, ?_, ?_⟩
  · simp [Heap.putFlag, Heap.set_state_apply, Heap.put_state_apply, lin, lit, frac, mA1, mA2, uq, up,
      currentAcc, oldAcc, mCurrentA1, mVerletFirst, Heap.withWorld]
    norm_num
  · simp [Heap.putFlag, Heap.set_state_apply, Heap.put_state_apply, lin, lit, frac, mA1, mA2, uq, up,
      currentAcc, oldAcc, mCurrentA1, mVerletFirst, Heap.withWorld]

/-- The same for the symplectic steppers: a force that throws leaves moved coordinates and old momenta. -/
theorem symplectic_exception_unsafe :
    ∃ h' : Heap ℚ ℚ Unit, rknDoStep symplecticEulerCoef (fun p => pure p) (fun _ => M.throw (.user 0))
        (.user 0) (.user 1) 1 (phaseHeap (0, 1)) = .err (.user 0) h' ∧
      h'.state (.user 0) = 1 ∧ h'.state (.user 1) = 1 := by
  refine ⟨_, rfl, ?_, ?_⟩
  · simp [Heap.set_state_apply, Heap.put_state_apply, lin, lit, phaseHeap, Heap.withWorld, mDqdt]
  · simp [Heap.set_state_apply, Heap.put_state_apply, lin, lit, phaseHeap, Heap.withWorld, mDqdt]

end Verif
