import Verif.Spec.AdaptiveAdams
import Verif.Lemmas.AdaptiveAdams
import Mathlib.Data.Rat.Defs
import Mathlib.Algebra.Order.Ring.Rat
import Mathlib.Algebra.Module.Defs
import Mathlib.Tactic.NormNum

/-!
# C26: the order of the adaptive Adams steppers stays in range and all accesses are in bounds
-/

namespace Verif
set_option linter.unusedSectionVars false
variable {K V E W A S : Type}
variable [Add K] [Sub K] [Mul K] [Div K] [Neg K] [IntCast K] [StateOps K V]

theorem orElse_sat {m : M S ℕ} {a : ℕ} {s : S} {Q : ℕ → S → Prop} {D : Prop} (h : (m s).Sat Q (fun _ s' => Q a s') D) :
    (orElse m a s).Sat Q (fun _ _ => False) D := by
  unfold orElse
  cases hm : m s <;> rw [hm] at h <;> exact h

theorem runAll_sat {C : Type} {run : ℕ → C → M S ℕ} {aft : ℕ → C → ℕ} (Q : ℕ → S → Prop) (ok : C → Prop)
    (h : ∀ n c s, ok c → Q n s → (run n c s).Sat Q (fun _ s' => Q (aft n c) s') True) :
    ∀ (cs : List C) (n : ℕ) (s : S), (∀ c ∈ cs, ok c) → Q n s → (runAll run aft n cs s).Sat Q (fun _ _ => False) True := by
  intro cs
  induction cs with
  | nil => exact fun n s _ hq => hq
  | cons c cs ih =>
    intro n s hc hq
    rw [runAll]
    apply Res.Sat.bind
    exact (orElse_sat (h n c s (hc c (by simp)) hq)).mono (fun m s' hm => ih m s' (fun c' hc' => hc c' (by simp [hc'])) hm)
      (fun _ _ h => h) (fun h => h)

/-- the invariant along histories -/
def Within (N n : ℕ) (C : AdamsCoef K V) : Prop := AdamsInv N C ∧ C.stepsInit ≤ n + 1

theorem Within.order {N n : ℕ} {C : AdamsCoef K V} (h : Within N n C) : 1 ≤ C.eo ∧ C.eo ≤ N ∧ C.eo ≤ n + 1 :=
  ⟨h.1.pos, h.1.le, h.1.hist.trans h.2⟩

theorem within_full {N : ℕ} {C : AdamsCoef K V} (h : AdamsInv N C) : Within N N C := ⟨h, h.cap⟩

theorem aabmCall_sat (N : ℕ) (hN : 1 ≤ N) (O : NumOps K) (n : ℕ) (c : AabmCall K V W) (s : AdState K V E W) (hc : c.Defined)
    (h : Within N n s.coef) :
    (c.run N O n s).Sat (fun m s' => Within N m s'.coef) (fun _ s' => Within N (c.afterThrow N n) s'.coef) True := by
  cases c with
  | doStep sys x t dt =>
    refine Res.Sat.bind ((aabmDoStep_sat N O hc x t dt s h.1).mono ?_ ?_ (fun h => h))
    · rintro r s' ⟨h', -⟩
      refine ⟨h'.inv h.1, ?_⟩
      have := h'.stepsInit
      have := h.2
      split_ifs at * <;> omega
    · rintro e s' ⟨h', -⟩
      exact ⟨h.1.same h', by rw [h'.stepsInit]; exact h.2⟩
  | initialize_ sys x t dt =>
    exact Res.Sat.bind ((aabmInitialize_sat N hN O hc x t dt s h.1).mono (fun _ _ h => within_full h) (fun _ _ h => within_full h) (fun h => h))
  | initializeWith start sys x t dt =>
    exact Res.Sat.bind ((aabmInitializeWith_sat N hN O hc.2 hc.1 x t dt s h.1).mono (fun _ _ h => within_full h) (fun _ _ h => within_full h)
      (fun h => h))
  | reset => exact ⟨reset_inv N hN h.1, le_rfl⟩

theorem cabmCall_sat (N : ℕ) (hN : 1 ≤ N) (hN' : N ≤ 13) (O : NumOps K) (norm : V → K) (P : AdamsAdjuster K V A) (n : ℕ)
    (c : CabmCall K V W) (s : AdState K V (CtrlMem V A) W) (hc : c.Defined) (h : Within N n s.coef) :
    (c.run N O norm P n s).Sat (fun m s' => Within N m s'.coef) (fun _ s' => Within N (c.afterThrow N n) s'.coef) True := by
  have key : ∀ (r : CabmOut K V) (s' : AdState K V (CtrlMem V A) W),
      (if r.success then AfterAccept N s.coef s'.coef else SameCount s.coef s'.coef) →
      Within N (if r.success then n + 1 else n) s'.coef := by
    intro r s' h'
    split at h' <;> rename_i hr
    · rw [if_pos hr]
      refine ⟨h'.inv h.1, ?_⟩
      have := h'.stepsInit
      have := h.2
      split_ifs at * <;> omega
    · rw [if_neg hr]
      exact ⟨h.1.same h', by rw [h'.stepsInit]; exact h.2⟩
  have kerr : ∀ s' : AdState K V (CtrlMem V A) W, SameCount s.coef s'.coef → Within N n s'.coef :=
    fun s' h' => ⟨h.1.same h', by rw [h'.stepsInit]; exact h.2⟩
  cases c with
  | tryStep sys x t dt =>
    exact Res.Sat.bind ((cabmTryStep_sat N hN' O norm P hc x t dt s h.1).mono (fun r s' h => key r s' h) (fun _ s' h => kerr s' h) (fun h => h))
  | tryStepInOut sys x t dt =>
    exact Res.Sat.bind ((cabmTryStepInOut_sat N hN' O norm P hc x t dt s h.1).mono (fun r s' h => key r s' h) (fun _ s' h => kerr s' h)
      (fun h => h))
  | initialize_ sys x t dt =>
    exact Res.Sat.bind ((aabmInitialize_sat N hN O hc x t dt s h.1).mono (fun _ _ h => within_full h) (fun _ _ h => within_full h) (fun h => h))
  | initializeWith start sys x t dt =>
    exact Res.Sat.bind ((aabmInitializeWith_sat N hN O hc.2 hc.1 x t dt s h.1).mono (fun _ _ h => within_full h) (fun _ _ h => within_full h)
      (fun h => h))
  | initializeControlled tryOther sys x t dt =>
    exact Res.Sat.bind ((cabmInitializeControlled_sat N hN O hc.2 hc.1 x t dt s h.1).mono (fun _ _ h => within_full h)
      (fun _ _ h => within_full h) (fun h => h))
  | reset => exact ⟨reset_inv N hN h.1, le_rfl⟩

theorem OrderWithin.of_sat {N : ℕ} {r : Res (AdState K V E W) ℕ}
    (h : r.Sat (fun m s' => Within N m s'.coef) (fun _ _ => False) True) : OrderWithin N (fun s => s.coef.eo) r := by
  refine ⟨?_, ?_⟩
  · rintro rfl; exact h
  · rintro n s rfl; exact Within.order h

/-- **C26**, the uncontrolled stepper: whatever calls are made on a new `adaptive_adams_bashforth_moulton< Steps >` with `Steps ≥ 1`, with
whatever systems, states, times and step sizes, and whether they throw or not, no access is out of bounds, and the order lies in
`1 .. Steps` and does not exceed the number of completed steps plus one (the current point is available as well). -/
theorem adaptive_adams_in_bounds (N : ℕ) (hN : 1 ≤ N) (O : NumOps K) (calls : List (AabmCall K V W)) (hc : ∀ c ∈ calls, c.Defined)
    (s : AdState K V E W) (mem : AdamsCoef K V) (hs : s.coef = mem.construct N) :
    OrderWithin N (fun s => s.coef.eo) (runAll (AabmCall.run N O) (AabmCall.afterThrow N) 0 calls s) := by
  refine OrderWithin.of_sat (runAll_sat (fun m (s' : AdState K V E W) => Within N m s'.coef) AabmCall.Defined ?_ calls 0 s hc ?_)
  · exact fun n c s hc hq => aabmCall_sat N hN O n c s hc hq
  · rw [hs]
    exact ⟨⟨le_rfl, hN, le_rfl, by show 1 ≤ N + 1; omega, rfl⟩, le_rfl⟩

/-- **C26**, the controlled stepper: the same for a new `controlled_adams_bashforth_moulton< adaptive_adams_bashforth_moulton< Steps > >` with any
step adjuster and `1 ≤ Steps ≤ 13`. -/
theorem controlled_adams_in_bounds (N : ℕ) (hN : 1 ≤ N) (hN' : N ≤ 13) (O : NumOps K) (norm : V → K) (P : AdamsAdjuster K V A)
    (calls : List (CabmCall K V W)) (hc : ∀ c ∈ calls, c.Defined)
    (s : AdState K V (CtrlMem V A) W) (mem : AdamsCoef K V) (hs : s.coef = mem.construct N) :
    OrderWithin N (fun s => s.coef.eo) (runAll (CabmCall.run N O norm P) (CabmCall.afterThrow N) 0 calls s) := by
  refine OrderWithin.of_sat (runAll_sat (fun m (s' : AdState K V (CtrlMem V A) W) => Within N m s'.coef) CabmCall.Defined ?_ calls 0 s hc ?_)
  · exact fun n c s hc hq => cabmCall_sat N hN hN' O norm P n c s hc hq
  · rw [hs]
    exact ⟨⟨le_rfl, hN, le_rfl, by show 1 ≤ N + 1; omega, rfl⟩, le_rfl⟩

/-- A system that always returns. -/
def Sys.Total (sys : Sys K V W) : Prop := ∀ x t w, ∃ d w', sys x t w = .ok d w'

theorem Sys.Total.defined {sys : Sys K V W} (h : sys.Total) : sys.Defined := fun x t w hub => by
  obtain ⟨d, w', h⟩ := h x t w
  rw [h] at hub
  cases hub

theorem adamsCall_total {sys : Sys K V W} (hsys : sys.Total) (x : V) (t : K) (s : AdState K V E W) : ∃ s', adamsCall sys x t s = .ok () s' := by
  obtain ⟨d, w', h⟩ := hsys x t s.world
  unfold adamsCall
  rw [h]
  exact ⟨_, rfl⟩

theorem ctrlCall_total {sys : Sys K V W} (hsys : sys.Total) (x : V) (t : K) (s : AdState K V (CtrlMem V A) W) :
    ∃ s', ctrlCall sys x t s = .ok () s' := by
  obtain ⟨d, w', h⟩ := hsys x t s.world
  unfold ctrlCall
  rw [h]
  exact ⟨_, rfl⟩

theorem adamsStepImpl_total (N : ℕ) (O : NumOps K) {sys : Sys K V W} (hsys : sys.Total) (x : V) (t dt : K) (s : AdState K V E W)
    (hs : AdamsInv N s.coef) : ∃ r s', adamsStepImpl N O sys x t dt s = .ok r s' := by
  have hp := hs.pos
  have hl := hs.le
  unfold adamsStepImpl
  rw [M.bind_ok (m := M.get) (w' := s) (a := s) rfl]
  obtain ⟨C, hC, hsame⟩ := adamsPredict_ok N O t dt s.coef hs
  rw [M.bind_ok (onCoef_ok hC)]
  generalize ({ s with coef := C } : AdState K V E W) = s1
  rw [M.bind_ok (m := M.get) (w' := s1) (a := s1) rfl]
  have : ∃ s2, ((if s1.coef.stepsInit = 1 then do
      adamsCall sys x t
      let s ← M.get
      onCoef (adamsUpdate N s.dxdt 1)
    else pure ()) : M (AdState K V E W) Unit) s1 = .ok () s2 := by
    split
    · obtain ⟨s2, h2⟩ := adamsCall_total hsys x t s1
      rw [M.bind_ok h2, M.bind_ok (m := M.get) (w' := s2) (a := s2) rfl]
      obtain ⟨C, hC, -⟩ := adamsUpdate_ok N s2.dxdt 1 (by omega) s2.coef
      exact ⟨_, onCoef_ok hC⟩
    · exact ⟨s1, rfl⟩
  obtain ⟨s2, h2⟩ := this
  rw [M.bind_ok h2]
  obtain ⟨out, ho⟩ := predictor_ok N dt s.coef.eo 0 (by omega) x s2
  rw [M.bind_ok ho]
  obtain ⟨s3, h3⟩ := adamsCall_total hsys out (t + dt) s2
  rw [M.bind_ok h3, M.bind_ok (m := M.get) (w' := s3) (a := s3) rfl]
  obtain ⟨C, hC, -⟩ := adamsUpdate_ok N s3.dxdt 0 (by omega) s3.coef
  rw [M.bind_ok (onCoef_ok hC), M.bind_ok (chk_ok (by omega) _)]
  exact ⟨_, _, rfl⟩

theorem setErr_ok (i : ℕ) (hi : i < 4) (v : V) (s : AdState K V (CtrlMem V A) W) : ∃ s', setErr i v s = .ok () s' ∧ s'.coef = s.coef := by
  unfold setErr
  rw [M.bind_ok (chk_ok hi _)]
  exact ⟨_, rfl, rfl⟩

/-- The order reached by `initialize`: `Steps`. -/
theorem aabmInitialize_order (N : ℕ) (hN : 1 ≤ N) (O : NumOps K) {sys : Sys K V W} (hsys : sys.Total) (x : V) (t dt : K)
    (s : AdState K V E W) (h : AdamsInv N s.coef) :
    ∃ p s', aabmInitialize N O sys x t dt s = .ok p s' ∧ s'.coef.eo = N ∧ AdamsInv N s'.coef := by
  have hdef := hsys.defined
  have step : ∀ (p : V × K) (s : AdState K V E W), AdamsInv N s.coef →
      ∃ q s', aabmInitSelf N O sys (dt / lit N) p s = .ok q s' ∧ AfterStep N s.coef s'.coef := by
    intro p s hs
    have hsat := aabmDoStep_sat N O hdef p.1 p.2 (dt / lit N) s hs
    have htot : ∃ r s', aabmDoStep N O sys p.1 p.2 (dt / lit N) s = .ok r s' := by
      have impl := adamsStepImpl_total N O hsys p.1 p.2 (dt / lit N) s hs
      obtain ⟨r, s1, h1⟩ := impl
      unfold aabmDoStep
      rw [M.bind_ok h1]
      obtain ⟨s2, h2⟩ := adamsCall_total hsys r.1 (p.2 + dt / lit N) s1
      rw [M.bind_ok h2, M.bind_ok (m := M.get) (w' := s2) (a := s2) rfl]
      obtain ⟨C, hC, -⟩ := adamsUpdate_ok N s2.dxdt 0 (by omega) s2.coef
      rw [M.bind_ok (onCoef_ok hC)]
      exact ⟨_, _, rfl⟩
    obtain ⟨r, s', h'⟩ := htot
    exact ⟨_, s', by unfold aabmInitSelf; rw [M.bind_ok h']; rfl, (hsat.of_ok h').1⟩
  have loop : ∀ (n lo : ℕ) (p : V × K) (s : AdState K V E W), AdamsInv N s.coef →
      ∃ q s', foldN (fun _ => aabmInitSelf N O sys (dt / lit N)) n lo p s = .ok q s' ∧ AdamsInv N s'.coef ∧
        s'.coef.eo = min N (s.coef.eo + n) := by
    intro n
    induction n with
    | zero => exact fun lo p s hs => ⟨p, s, rfl, hs, by have := hs.le; omega⟩
    | succ n ih =>
      intro lo p s hs
      obtain ⟨q, s1, e1, h1⟩ := step p s hs
      obtain ⟨q2, s2, e2, h2, h3⟩ := ih (lo + 1) q s1 (h1.inv hs)
      refine ⟨q2, s2, by rw [foldN, M.bind_ok e1]; exact e2, h2, ?_⟩
      rw [h3, h1.eo]
      split_ifs <;> omega
  unfold aabmInitialize
  rw [M.bind_ok (onCoef_ok (modify_ok _ _))]
  obtain ⟨q, s', e, h1, h2⟩ := loop N 0 (x, t) { s with coef := s.coef.reset } (reset_inv N hN h)
  refine ⟨q, s', e, ?_, h1⟩
  rw [h2]
  show min N (1 + N) = N
  omega

/-- The bound on `Steps` in `controlled_adams_in_bounds` is sharp: `gs` has fourteen entries.  With `Steps ≥ 14` the first step that is
accepted after `initialize` reads beyond its end, whatever the system, the state and the time (`hacc`: the step adjuster keeps the step size or increases it). -/
theorem controlled_adams_table_too_short (N : ℕ) (hN : 14 ≤ N) (O : NumOps K) (norm : V → K) (P : AdamsAdjuster K V A) {sys : Sys K V W}
    (hsys : sys.Total) (x0 : V) (t0 dt0 : K) (x : V) (t dt : K)
    (hacc : ∀ steps e x d a, O.le P.threshold ((P.adjust steps dt e x d a).1 / dt) = true) (s : AdState K V (CtrlMem V A) W) (mem : AdamsCoef K V) (hs : s.coef = mem.construct N) :
    (do let _ ← aabmInitialize N O sys x0 t0 dt0; cabmTryStep N O norm P sys x t dt) s = .ub := by
  have h0 : AdamsInv N s.coef := by rw [hs]; exact ⟨le_rfl, by show 1 ≤ N; omega, le_rfl, by show 1 ≤ N + 1; omega, rfl⟩
  obtain ⟨p, s1, e1, ho, hi⟩ := aabmInitialize_order N (by omega) O hsys x0 t0 dt0 s h0
  rw [M.bind_ok e1]
  have hdef := hsys.defined
  have impl := adamsStepImpl_total N O hsys x t dt s1 hi
  obtain ⟨r, s2, e2⟩ := impl
  have hsame := ((adamsStepImpl_sat N O hdef x t dt s1 hi).of_ok e2).1
  unfold cabmTryStep
  rw [M.bind_ok e2]
  obtain ⟨s3, e3, c3⟩ := setErr_ok 2 (by omega) r.2 s2
  rw [M.bind_ok e3]
  obtain ⟨s4, e4, c4⟩ : ∃ s4, callAdjuster P dt r.1 s3 =
      .ok (P.adjust s3.coef.eo dt (s3.ext.xerr 2) r.1 s3.dxdt s3.ext.adj).1 s4 ∧ s4.coef = s3.coef := ⟨_, rfl, rfl⟩
  rw [M.bind_ok e4, if_pos (hacc _ _ _ _ _)]
  apply M.bind_ub
  unfold acceptStep
  obtain ⟨s5, e5⟩ := ctrlCall_total hsys r.1 (t + dt) s4
  have c5 := (ctrlCall_sat hdef r.1 (t + dt) s4).of_ok e5
  rw [M.bind_ok e5, M.bind_ok (m := M.get) (w' := s5) (a := s5) rfl]
  obtain ⟨C, hC, hCs⟩ := adamsUpdate_ok N s5.ext.dxdt 0 (by omega) s5.coef
  rw [M.bind_ok (onCoef_ok hC), M.bind_ok (onCoef_ok (modify_ok _ _))]
  have heo : (C.confirm N).eo = N := by
    show C.eo = N
    rw [hCs.eo, c5, c4, c3, hsame.eo, ho]
  generalize hs6 : ({ s5 with coef := C.confirm N } : AdState K V (CtrlMem V A) W) = s6
  have h6 : s6.coef.eo = N := by subst hs6; exact heo
  show (do
    let s ← M.get
    estimate N _ 2 s.coef.eo
    (if 1 < s.coef.eo then estimate N _ 1 (s.coef.eo - 1) else pure ())
    (if 2 < s.coef.eo then estimate N _ 0 (s.coef.eo - 2) else pure ())
    (if s.coef.eo < N ∧ s.coef.eo < s.coef.stepsInit - 1 then estimate N _ 3 (s.coef.eo + 1) else pure ())
    let s ← M.get
    onCoef (M.modify fun C => C.setEo (adjustOrder O N norm C.eo (C.stepsInit - 1) s.ext.xerr))) s6 = _
  rw [M.bind_ok (m := M.get) (w' := s6) (a := s6) rfl, h6]
  apply M.bind_ub
  unfold estimate
  exact M.bind_ub (chk_ub (by omega) _) _

/-! ## Concrete cases -/

section Examples

/-- the operations on rational numbers; `pow` does not matter here -/
def ratOps : NumOps ℚ where
  lt a b := decide (a < b)
  le a b := decide (a ≤ b)
  eq a b := decide (a = b)
  abs a := |a|
  pow a _ := a
  eps := 0

/-- a system that counts its calls and throws at every fifth call -/
def moody : Sys ℚ ℚ ℕ := fun x t n => if n % 5 = 4 then .err (.user 7) (n + 1) else .ok (t - x) (n + 1)

theorem moody_defined : moody.Defined := by
  intro x t w
  unfold moody
  split <;> simp

/-- a new controlled stepper of five steps, with the memory full of sevens -/
def someMem : AdState ℚ ℚ (CtrlMem ℚ Unit) ℕ where
  coef := AdamsCoef.construct 5 ⟨7, 7, 7, fun _ _ => 7, fun _ _ => 7, fun _ => 7, fun _ => 7, fun _ => 7⟩
  dxdt := 7
  ext := ⟨7, fun _ => 7, ()⟩
  world := 0

/-- a step adjuster that accepts small steps -/
def simpleAdjuster : AdamsAdjuster ℚ ℚ Unit := ⟨fun _ dt e _ _ a => (if dt < 1 then dt * 2 else dt / 2, e, a), 9 / 10⟩

/-- a history with rejected steps and exceptions -/
def someCalls : List (CabmCall ℚ ℚ ℕ) :=
  [.tryStepInOut moody 1 0 2, .tryStepInOut moody 1 0 (1 / 2), .initialize_ moody 1 0 1, .tryStep moody 1 1 (1 / 3), .reset,
    .initializeControlled (fun x t dt n => .ok ⟨true, x, t + dt, dt * 2⟩ n) moody 3 0 1, .tryStep moody 1 1 (1 / 3)]

example : OrderWithin 5 (fun s => s.coef.eo)
    (runAll (CabmCall.run 5 ratOps (fun x => x) simpleAdjuster) (CabmCall.afterThrow 5) 0 someCalls someMem) :=
  controlled_adams_in_bounds 5 (by norm_num) (by norm_num) ratOps _ simpleAdjuster someCalls
    (by
      intro c hc
      simp only [someCalls, List.mem_cons, List.not_mem_nil, or_false] at hc
      rcases hc with rfl | rfl | rfl | rfl | rfl | rfl | rfl
      · exact moody_defined
      · exact moody_defined
      · exact moody_defined
      · exact moody_defined
      · trivial
      · exact ⟨moody_defined, fun x t dt w => by simp⟩
      · exact moody_defined) someMem _ rfl

/-- fourteen steps are too many -/
example (s : AdState ℚ ℚ (CtrlMem ℚ Unit) ℕ) (mem : AdamsCoef ℚ ℚ) (hs : s.coef = mem.construct 14) :
    (do let _ ← aabmInitialize 14 ratOps (fun x t n => .ok (t - x) (n + 1)) 1 0 1
        cabmTryStep 14 ratOps (fun x => x) simpleAdjuster (fun x t n => .ok (t - x) (n + 1)) 1 1 (1 / 2)) s = .ub :=
  controlled_adams_table_too_short 14 le_rfl ratOps _ simpleAdjuster (fun x t w => ⟨_, _, rfl⟩) 1 0 1 1 1 (1 / 2)
    (by intro steps e x d a; simp only [ratOps, simpleAdjuster]; norm_num) s mem hs

end Examples
end Verif
