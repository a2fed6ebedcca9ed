import Verif.Lemmas.AdamsKeeps
import Verif.Props.AdaptiveAdams

/-!
# C56: the adaptive Adams steppers are variable step PECE methods
-/

namespace Verif
open Finset
set_option linter.unusedSectionVars false
variable {V E W A : Type} [AddCommGroup V] [Module ℝ V]

/-- the end of a step, with any new order up to one more than the old one -/
theorem AdamsMid.next {N : ℕ} {C : AdamsCoef ℝ V} {h : ℕ → ℝ × V} {dt : ℝ} (hm : AdamsMid N C h dt C.eo) (d : V)
    (hne : ∀ j < C.stepsInit, (h 0).1 + dt ≠ (h j).1) :
    ∃ C', adamsUpdate N d 0 C = .ok () C' ∧ SameCount C C' ∧ AdamsMid N C' h dt C.eo ∧
      ∀ C'', AdamsInv N C'' → C''.eo ≤ C.eo + 1 → C''.stepsInit = (C'.confirm N).stepsInit → C''.beta = (C'.confirm N).beta →
        C''.c = (C'.confirm N).c → C''.g = (C'.confirm N).g → C''.time = (C'.confirm N).time → C''.phi = (C'.confirm N).phi →
        AdamsHist N C'' (push ((h 0).1 + dt, d) h) := by
  obtain ⟨C', e, hs, hmid, hcon, htime, htab⟩ := hm.finish le_rfl d hne
  refine ⟨C', e, hs, hmid, ?_⟩
  intro C'' hi heo h1 h2 h3 h4 h5 h6
  refine AdamsMem.hist (v := C.eo + 1) ⟨hi, ⟨?_, ?_, ?_, ?_, ?_, ?_⟩, ?_, ?_⟩ heo
  · rw [h2]; exact hcon.beta0
  · rw [h2]; exact hcon.beta1
  · rw [h3]; exact hcon.c0
  · rw [h3]; exact hcon.c1
  · rw [h4]; exact hcon.g0
  · rw [h4]; exact hcon.g1
  · rw [h1, h5]; exact htime
  · rw [h6]; exact htab

/-- a step of the uncontrolled stepper -/
theorem aabmDoStep_pece (N : ℕ) (O : NumOps ℝ) {sys : Sys ℝ V W} (hsys : sys.Defined) {f : V → ℝ → V} (hf : Returns sys f) (x : V) (t dt : ℝ)
    (s : AdState ℝ V E W) (h : ℕ → ℝ × V) (hm : AdamsHist N s.coef h) (h0 : h 0 = (t, f x t))
    (hd : AdamsDistinct s.coef.stepsInit h (t + dt)) :
    (aabmDoStep N O sys x t dt s).Sat
      (fun r s' => IsPec f s.coef.eo h x t dt r ∧ AdamsHist N s'.coef (push (t + dt, f r.1 (t + dt)) h) ∧ AfterStep N s.coef s'.coef)
      (fun _ s' => AdamsHist N s'.coef h ∧ SameCount s.coef s'.coef) True := by
  have ht : (h 0).1 = t := by rw [h0]
  unfold aabmDoStep
  apply Res.Sat.bind
  refine (adamsStepImpl_pec N O hsys hf x t dt s h hm h0 hd).mono ?_ (fun _ _ h => ⟨h.1, h.2.1⟩) (fun h => h)
  rintro r s1 ⟨r1, r2, m1, c1, -⟩
  rw [← c1.eo] at m1
  have hd1 : ∀ j < s1.coef.stepsInit, (h 0).1 + dt ≠ (h j).1 := by rw [c1.stepsInit, ht]; exact hd.1
  apply Res.Sat.bind
  refine (adamsCall_value hsys hf r.1 (t + dt) s1).mono ?_ ?_ (fun h => h)
  · rintro - s2 ⟨c2, -, d2⟩
    rw [M.bind_ok (m := M.get) (w' := s2) (a := s2) rfl]
    apply Res.Sat.bind
    obtain ⟨C', e, hs, -, hnext⟩ := m1.next s2.dxdt hd1
    rw [← c2] at e
    refine onCoef_eq e ?_
    have hafter : AfterStep N s.coef ((C'.confirm N).raise N) := afterStep_of N (c1.trans hs)
    refine ⟨⟨r1, r2⟩, ?_, hafter⟩
    rw [← d2, ← ht]
    refine hnext _ (hafter.inv hm.inv) ?_ ?_ ?_ ?_ ?_ ?_ ?_
    · have := hafter.eo
      rw [c1.eo]
      show ((C'.confirm N).raise N).eo ≤ _
      split_ifs at this <;> omega
    all_goals
      show _ = _
      unfold AdamsCoef.raise
      split <;> rfl
  · rintro e s2 ⟨c2, -⟩
    rw [c2]
    exact ⟨m1.mem.hist le_rfl, c1⟩

/-! ## Runs -/

theorem attempt_sat {S α : Type} {m : M S α} {s : S} {Q : α → S → Prop} {F : Err → S → Prop} {D : Prop} (h : (m s).Sat Q F D) :
    (attempt m s).Sat (fun o s' => match o with | some a => Q a s' | none => ∃ e, F e s') (fun _ _ => False) D := by
  unfold attempt
  cases e : m s with
  | ok a s' => rw [e] at h; exact h
  | err x s' => rw [e] at h; exact ⟨x, h⟩
  | ub => rw [e] at h; exact h
  | div => rw [e] at h; exact h

/-- The first `n` points of the history lie in the direction opposite to `σ`. -/
def AdamsSorted (σ : ℝ) (n : ℕ) (h : ℕ → ℝ × V) : Prop := ∀ i j, i < j → j < n → 0 < σ * ((h i).1 - (h j).1)

theorem AdamsSorted.distinct {σ : ℝ} {n : ℕ} {h : ℕ → ℝ × V} (hs : AdamsSorted σ n h) {m : ℕ} (hm : m ≤ n) {dt : ℝ} (hdt : 0 < σ * dt) :
    AdamsDistinct m h ((h 0).1 + dt) := by
  refine ⟨?_, ?_⟩
  · intro j hj e
    rcases Nat.eq_zero_or_pos j with rfl | h0
    · have : dt = 0 := by linarith
      rw [this] at hdt
      simp at hdt
    · have := hs 0 j h0 (by omega)
      have e' : (h 0).1 - (h j).1 = -dt := by linarith
      rw [e'] at this
      nlinarith
  · intro i hi j hj e
    by_contra hne
    rcases Nat.lt_or_gt_of_ne hne with hlt | hlt
    · have := hs i j hlt (by omega)
      rw [e, sub_self, mul_zero] at this
      exact absurd this (lt_irrefl _)
    · have := hs j i hlt (by omega)
      rw [e, sub_self, mul_zero] at this
      exact absurd this (lt_irrefl _)

theorem AdamsSorted.push {σ : ℝ} {n : ℕ} {h : ℕ → ℝ × V} (hs : AdamsSorted σ (n + 1) h) {dt : ℝ} (hdt : 0 < σ * dt) (d : V) :
    AdamsSorted σ (n + 1 + 1) (push ((h 0).1 + dt, d) h) := by
  intro i j hij hj
  obtain ⟨j, rfl⟩ : ∃ k, j = k + 1 := ⟨j - 1, by omega⟩
  cases i with
  | zero =>
    show 0 < σ * ((h 0).1 + dt - (h j).1)
    rcases Nat.eq_zero_or_pos j with rfl | h0
    · have : (h 0).1 + dt - (h 0).1 = dt := by ring
      rw [this]; exact hdt
    · have := hs 0 j h0 (by omega)
      nlinarith
  | succ i => exact hs i j (by omega) (by omega)

/-- what is known between two steps after `n` completed steps -/
structure AdamsAt (N : ℕ) (σ : ℝ) (f : V → ℝ → V) (n : ℕ) (C : AdamsCoef ℝ V) (h : ℕ → ℝ × V) (x : V) (t : ℝ) : Prop where
  hist : AdamsHist N C h
  cur : h 0 = (t, f x t)
  sorted : AdamsSorted σ (n + 1) h
  count : C.stepsInit ≤ n + 1

theorem stepAll_sat (N : ℕ) (O : NumOps ℝ) {sys : Sys ℝ V W} (hsys : sys.Defined) {f : V → ℝ → V} (hf : Returns sys f) (σ : ℝ)
    (dts : List ℝ) (hdts : ∀ dt ∈ dts, 0 < σ * dt) (n : ℕ) (h : ℕ → ℝ × V) (x : V) (t : ℝ) (s : AdState ℝ V E W)
    (ha : AdamsAt N σ f n s.coef h x t) (heo : s.coef.eo = min (n + 1) N) :
    (stepAll N O sys dts x t s).Sat (fun rs _ => PeceSteps f N n h x t dts rs) (fun _ _ => False) True := by
  induction dts generalizing n h x t s with
  | nil => exact trivial
  | cons dt dts ih =>
    have hdt := hdts dt (by simp)
    have hrest : ∀ d ∈ dts, 0 < σ * d := fun d hd => hdts d (by simp [hd])
    have ht : (h 0).1 = t := by rw [ha.cur]
    have hd : AdamsDistinct s.coef.stepsInit h (t + dt) := by rw [← ht]; exact ha.sorted.distinct ha.count hdt
    unfold stepAll
    apply Res.Sat.bind
    refine (attempt_sat (aabmDoStep_pece N O hsys hf x t dt s h ha.hist ha.cur hd)).mono ?_ (by simp) (fun h => h)
    intro o s1 ho
    cases o with
    | some r =>
      obtain ⟨hr, hh, hst⟩ := ho
      have h1 := hst.eo
      have h2 := hst.stepsInit
      have h3 := ha.count
      have hnext : AdamsAt N σ f (n + 1) s1.coef (push (t + dt, f r.1 (t + dt)) h) r.1 (t + dt) :=
        ⟨hh, rfl, by rw [← ht]; exact ha.sorted.push hdt _, by split_ifs at h2 <;> omega⟩
      apply Res.Sat.bind
      refine (ih hrest (n + 1) _ r.1 (t + dt) s1 hnext (by rw [heo] at h1; split_ifs at h1 <;> omega)).mono ?_ (fun _ _ h => h) (fun h => h)
      intro rs s2 hrs
      refine ⟨?_, hrs⟩
      rw [← heo]; exact hr
    | none =>
      obtain ⟨-, hh, hst⟩ := ho
      have hnext : AdamsAt N σ f n s1.coef h x t := ⟨hh, ha.cur, ha.sorted, by rw [hst.stepsInit]; exact ha.count⟩
      apply Res.Sat.bind
      exact (ih hrest n h x t s1 hnext (by rw [hst.eo]; exact heo)).mono (fun rs s2 hrs => hrs) (fun _ _ h => h) (fun h => h)

/-- the memory after a reset -/
theorem reset_at {N : ℕ} (hN : 1 ≤ N) {C : AdamsCoef ℝ V} (hi : AdamsInv N C) (hc : AdamsConst N C) (σ : ℝ) (f : V → ℝ → V) (x : V) (t : ℝ) :
    AdamsAt N σ f 0 C.reset (fun _ => (t, f x t)) x t := by
  refine ⟨?_, rfl, fun i j h1 h2 => absurd h2 (by omega), le_rfl⟩
  show AdamsMem N C.reset _ (if (1 : ℕ) = 1 then 0 else _)
  rw [if_pos rfl]
  refine ⟨reset_inv N hN hi, ⟨hc.beta0, hc.beta1, hc.c0, hc.c1, hc.g0, hc.g1⟩, fun j h1 h2 => ?_, fun m hm => absurd hm (by omega)⟩
  have : C.reset.stepsInit = 1 := rfl
  omega

theorem inv_after {N : ℕ} (hN : 1 ≤ N) (O : NumOps ℝ) (calls : List (AabmCall ℝ V W)) (hc : ∀ c ∈ calls, c.Defined) (s s1 : AdState ℝ V E W)
    (mem : AdamsCoef ℝ V) (hs : s.coef = mem.construct N) (n : ℕ)
    (hrun : runAll (AabmCall.run N O) (AabmCall.afterThrow N) 0 calls s = .ok n s1) : AdamsInv N s1.coef ∧ AdamsConst N s1.coef := by
  have h1 := runAll_sat (aft := AabmCall.afterThrow N) (fun m (s' : AdState ℝ V E W) => Within N m s'.coef) AabmCall.Defined
    (fun n c s hc hq => aabmCall_sat N hN O n c s hc hq) calls 0 s hc
    (by rw [hs]; exact ⟨⟨le_rfl, hN, le_rfl, by show 1 ≤ N + 1; omega, rfl⟩, le_rfl⟩)
  rw [hrun] at h1
  exact ⟨h1.1, ((Keeps.runAll (fun n c => AabmCall.run_keeps N O n c) calls 0) s (by show AdamsConst N s.coef; rw [hs]; exact construct_const N mem)).1 n s1 hrun⟩

theorem inv_after_ctrl {N : ℕ} (hN : 1 ≤ N) (hN' : N ≤ 13) (O : NumOps ℝ) (norm : V → ℝ) (P : AdamsAdjuster ℝ V A)
    (calls : List (CabmCall ℝ V W)) (hc : ∀ c ∈ calls, c.Defined) (s s1 : AdState ℝ V (CtrlMem V A) W)
    (mem : AdamsCoef ℝ V) (hs : s.coef = mem.construct N) (n : ℕ)
    (hrun : runAll (CabmCall.run N O norm P) (CabmCall.afterThrow N) 0 calls s = .ok n s1) : AdamsInv N s1.coef ∧ AdamsConst N s1.coef := by
  have h1 := runAll_sat (aft := CabmCall.afterThrow N) (fun m (s' : AdState ℝ V (CtrlMem V A) W) => Within N m s'.coef) CabmCall.Defined
    (fun n c s hc hq => cabmCall_sat N hN hN' O norm P n c s hc hq) calls 0 s hc
    (by rw [hs]; exact ⟨⟨le_rfl, hN, le_rfl, by show 1 ≤ N + 1; omega, rfl⟩, le_rfl⟩)
  rw [hrun] at h1
  exact ⟨h1.1, ((Keeps.runAll (fun n c => CabmCall.run_keeps N O norm P n c) calls 0) s (by show AdamsConst N s.coef; rw [hs]; exact construct_const N mem)).1 n s1 hrun⟩

theorem sat_run {S α : Type} {r : Res S α} {Q : α → Prop} (h : r.Sat (fun a _ => Q a) (fun _ _ => False) True) :
    r ≠ .ub ∧ ∀ a s', r = .ok a s' → Q a := by
  refine ⟨?_, ?_⟩
  · rintro rfl; exact h
  · rintro a s' rfl; exact h

/-- **C56**, the uncontrolled stepper.  Whatever has been done with an `adaptive_adams_bashforth_moulton< Steps >` before, after a `reset` (which changes
nothing on a new stepper) steps in one direction with any step sizes are steps of the variable step PECE method of Adams: the `n`-th
step predicts with the integral of the polynomial through the last `k = min( n , Steps )` points, corrects with the polynomial through these points and
the predicted one, and reports the difference as error.  A step that throws can be repeated as if it had not been tried. -/
theorem adaptive_adams_pece (N : ℕ) (hN : 1 ≤ N) (O : NumOps ℝ) (calls : List (AabmCall ℝ V W)) (hc : ∀ c ∈ calls, c.Defined)
    (s s1 : AdState ℝ V E W) (mem : AdamsCoef ℝ V) (hs : s.coef = mem.construct N) (n : ℕ)
    (hrun : runAll (AabmCall.run N O) (AabmCall.afterThrow N) 0 calls s = .ok n s1)
    {sys : Sys ℝ V W} (hsys : sys.Defined) {f : V → ℝ → V} (hf : Returns sys f) (dts : List ℝ)
    (hdts : (∀ dt ∈ dts, 0 < dt) ∨ (∀ dt ∈ dts, dt < 0)) (x : V) (t : ℝ) :
    let r := (do onCoef (M.modify AdamsCoef.reset); stepAll N O sys dts x t) s1
    r ≠ .ub ∧ ∀ rs s', r = .ok rs s' → PeceSteps f N 0 (fun _ => (t, f x t)) x t dts rs := by
  obtain ⟨hi, hcst⟩ := inv_after hN O calls hc s s1 mem hs n hrun
  obtain ⟨σ, hσ⟩ : ∃ σ : ℝ, ∀ dt ∈ dts, 0 < σ * dt := by
    rcases hdts with h | h
    · exact ⟨1, fun dt hd => by rw [one_mul]; exact h dt hd⟩
    · exact ⟨-1, fun dt hd => by have := h dt hd; linarith⟩
  refine sat_run ?_
  rw [M.bind_ok (onCoef_ok (modify_ok _ _))]
  refine stepAll_sat N O hsys hf σ dts hσ 0 _ x t _ (reset_at hN hi hcst σ f x t) ?_
  show 1 = min (0 + 1) N
  omega

/-! ## A start with another stepper -/

theorem outside_value {m : M W α} {a : α} (hm : ∀ w, m w ≠ .ub) (ha : ∀ w b w', m w = .ok b w' → b = a) (s : AdState ℝ V E W) :
    (outside m s).Sat (fun b s' => s' = { s with world := s'.world } ∧ b = a) (fun _ _ => True) True := by
  unfold outside
  have := hm s.world
  cases h : m s.world with
  | ok d w => exact ⟨rfl, ha _ _ _ h⟩
  | err e w => trivial
  | ub => exact absurd h this
  | div => trivial

theorem startPoints_time (f : V → ℝ → V) (S : V → V → ℝ → ℝ → V) (x : V) (t δ : ℝ) (n : ℕ) : (startPoints f S x t δ n).2.1 = t + n * δ := by
  induction n with
  | zero => simp [startPoints]
  | succ n ih =>
    show (startPoints f S x t δ n).2.1 + δ = _
    rw [ih]
    push_cast
    ring

theorem startPoints_cur (f : V → ℝ → V) (S : V → V → ℝ → ℝ → V) (x : V) (t δ : ℝ) (n : ℕ) :
    (startPoints f S x t δ n).2.2 0 = ((startPoints f S x t δ n).2.1, f (startPoints f S x t δ n).1 (startPoints f S x t δ n).2.1) := by
  cases n <;> rfl

theorem startPoints_sorted (f : V → ℝ → V) (S : V → V → ℝ → ℝ → V) (x : V) (t δ σ : ℝ) (hδ : 0 < σ * δ) (n : ℕ) :
    AdamsSorted σ (n + 1) (startPoints f S x t δ n).2.2 := by
  induction n with
  | zero => exact fun i j h1 h2 => absurd h2 (by omega)
  | succ n ih =>
    have := ih.push hδ (f (S (startPoints f S x t δ n).1 (f (startPoints f S x t δ n).1 (startPoints f S x t δ n).2.1) (startPoints f S x t δ n).2.1 δ)
      ((startPoints f S x t δ n).2.1 + δ))
    rw [startPoints_cur] at this
    exact this

/-- what is known after `n` starting steps -/
structure StartAt (N : ℕ) (f : V → ℝ → V) (S : V → V → ℝ → ℝ → V) (x : V) (t δ : ℝ) (n : ℕ) (p : V × ℝ) (s : AdState ℝ V E W) : Prop where
  mem : AdamsMem N s.coef (startPoints f S x t δ n).2.2 n
  eo : s.coef.eo = min (n + 1) N
  count : s.coef.stepsInit = n + 1
  point : p = ((startPoints f S x t δ n).1, (startPoints f S x t δ n).2.1)
  dxdt : s.dxdt = f p.1 p.2

theorem aabmInitStep_value (N : ℕ) (O : NumOps ℝ) {start : V → V → ℝ → ℝ → M W V} (hst : ∀ x d t dt w, start x d t dt w ≠ .ub)
    {S : V → V → ℝ → ℝ → V} (hS : ∀ x d t dt w y w', start x d t dt w = .ok y w' → y = S x d t dt)
    {sys : Sys ℝ V W} (hsys : sys.Defined) {f : V → ℝ → V} (hf : Returns sys f) (x : V) (t δ σ : ℝ) (hδ : 0 < σ * δ) (n : ℕ) (hn : n < N)
    (p : V × ℝ) (s : AdState ℝ V E W) (h : StartAt N f S x t δ n p s) :
    (aabmInitStep N O start sys δ p s).Sat (fun p' s' => StartAt N f S x t δ (n + 1) p' s') (fun _ _ => True) True := by
  set P := startPoints f S x t δ n with hP
  have hcur := startPoints_cur f S x t δ n
  rw [← hP] at hcur
  have hp := h.point
  rw [← hP] at hp
  have hmem := h.mem
  rw [← hP] at hmem
  have ht : (P.2.2 0).1 = p.2 := by rw [hcur, hp]
  have hsorted := startPoints_sorted f S x t δ σ hδ n
  rw [← hP] at hsorted
  have hd : AdamsDistinct s.coef.stepsInit P.2.2 (p.2 + δ) := by rw [← ht]; exact hsorted.distinct (le_of_eq h.count) hδ
  unfold aabmInitStep
  rw [M.bind_ok (m := M.get) (w' := s) (a := s) rfl]
  apply Res.Sat.bind
  refine (outside_value (fun w => hst _ _ _ _ w) (fun w b w' e => hS _ _ _ _ _ _ _ e) s).mono ?_ (fun _ _ _ => trivial) (fun h => h)
  rintro y s1 ⟨e1, hy⟩
  have c1 : s1.coef = s.coef := by rw [e1]
  apply Res.Sat.bind
  refine (adamsCall_value hsys hf y (p.2 + δ) s1).mono ?_ (fun _ _ _ => trivial) (fun h => h)
  rintro - s2 ⟨c2, -, d2⟩
  have c2' : s2.coef = s.coef := c2.trans c1
  apply Res.Sat.bind
  obtain ⟨C3, e3, m3, k3⟩ := hmem.predict O p.2 δ ht hd.1
  rw [← c2'] at e3
  refine onCoef_eq e3 ?_
  rw [M.bind_ok (m := M.get) rfl]
  apply Res.Sat.bind
  have hv : n ≤ C3.eo := by rw [k3.eo, h.eo]; omega
  obtain ⟨C4, e4, k4, -, hcon, htime, htab⟩ := m3.finish hv s2.dxdt (by rw [k3.stepsInit, ht]; exact hd.1)
  refine onCoef_eq e4 ?_
  have hafter : AfterStep N s.coef ((C4.confirm N).raise N) := afterStep_of N (k3.trans k4)
  have hinv := hafter.inv h.mem.inv
  have f1 : ((C4.confirm N).raise N).stepsInit = (C4.confirm N).stepsInit := by unfold AdamsCoef.raise; split <;> rfl
  have f2 : ((C4.confirm N).raise N).beta = (C4.confirm N).beta := by unfold AdamsCoef.raise; split <;> rfl
  have f3 : ((C4.confirm N).raise N).c = (C4.confirm N).c := by unfold AdamsCoef.raise; split <;> rfl
  have f4 : ((C4.confirm N).raise N).g = (C4.confirm N).g := by unfold AdamsCoef.raise; split <;> rfl
  have f5 : ((C4.confirm N).raise N).time = (C4.confirm N).time := by unfold AdamsCoef.raise; split <;> rfl
  have f6 : ((C4.confirm N).raise N).phi = (C4.confirm N).phi := by unfold AdamsCoef.raise; split <;> rfl
  have hy' : y = S P.1 (f P.1 P.2.1) P.2.1 δ := by rw [hy, h.dxdt, hp]
  have hpt : ((P.2.2 0).1 + δ, s2.dxdt) = (P.2.1 + δ, f (S P.1 (f P.1 P.2.1) P.2.1 δ) (P.2.1 + δ)) := by
    rw [ht, d2, hy', hp]
  have hnew : (startPoints f S x t δ (n + 1)).2.2 = push ((P.2.2 0).1 + δ, s2.dxdt) P.2.2 := by rw [hpt]; rfl
  have hcount := hafter.stepsInit
  have heo := hafter.eo
  rw [h.count] at hcount
  rw [h.eo] at heo
  refine ⟨?_, ?_, ?_, ?_, ?_⟩
  · rw [hnew]
    refine ⟨hinv, ⟨?_, ?_, ?_, ?_, ?_, ?_⟩, ?_, ?_⟩
    · show ((C4.confirm N).raise N).beta 0 0 = 1
      rw [f2]; exact hcon.beta0
    · show ((C4.confirm N).raise N).beta 1 0 = 1
      rw [f2]; exact hcon.beta1
    · show ∀ q < N + 2, ((C4.confirm N).raise N).c q = _
      rw [f3]; exact hcon.c0
    · show ∀ q < N + 2, ((C4.confirm N).raise N).c (N + 2 + q) = _
      rw [f3]; exact hcon.c1
    · show ((C4.confirm N).raise N).g 0 = 1
      rw [f4]; exact hcon.g0
    · show ((C4.confirm N).raise N).g 1 = _
      rw [f4]; exact hcon.g1
    · show ∀ j, 1 ≤ j → j < ((C4.confirm N).raise N).stepsInit → ((C4.confirm N).raise N).time j = _
      rw [f1, f5]; exact htime
    · show TableValid _ _ _ (((C4.confirm N).raise N).phi 1)
      rw [f6]; exact htab
  · show ((C4.confirm N).raise N).eo = _
    split_ifs at heo <;> omega
  · show ((C4.confirm N).raise N).stepsInit = _
    rw [if_pos (by omega)] at hcount
    omega
  · show (y, p.2 + δ) = (S P.1 (f P.1 P.2.1) P.2.1 δ, P.2.1 + δ)
    rw [hy', hp]
  · exact d2

/-- **C56**, the start with an explicit stepper.  Whatever has been done with the stepper before, `initialize( stepper , system , x , t , dt )` takes
`Steps` steps of size `dt / Steps` with the stepper given, and the steps that follow (in the same direction) are PECE steps of order `Steps` from the
points found. -/
theorem adaptive_adams_initialize_pece (N : ℕ) (hN : 1 ≤ N) (O : NumOps ℝ) (calls : List (AabmCall ℝ V W)) (hc : ∀ c ∈ calls, c.Defined)
    (s s1 : AdState ℝ V E W) (mem : AdamsCoef ℝ V) (hs : s.coef = mem.construct N) (n : ℕ)
    (hrun : runAll (AabmCall.run N O) (AabmCall.afterThrow N) 0 calls s = .ok n s1)
    {start : V → V → ℝ → ℝ → M W V} (hst : ∀ x d t dt w, start x d t dt w ≠ .ub)
    {S : V → V → ℝ → ℝ → V} (hS : ∀ x d t dt w y w', start x d t dt w = .ok y w' → y = S x d t dt)
    {sys : Sys ℝ V W} (hsys : sys.Defined) {f : V → ℝ → V} (hf : Returns sys f) (x : V) (t dt : ℝ) (dts : List ℝ)
    (hdts : (0 < dt ∧ ∀ d ∈ dts, 0 < d) ∨ (dt < 0 ∧ ∀ d ∈ dts, d < 0)) :
    aabmInitializeWith N O start sys x t dt s1 ≠ .ub ∧
    ∀ p s2, aabmInitializeWith N O start sys x t dt s1 = .ok p s2 →
      let P := startPoints f S x t (dt / N) N
      p = (P.1, P.2.1) ∧ P.2.1 = t + dt ∧ stepAll N O sys dts p.1 p.2 s2 ≠ .ub ∧
      ∀ rs s', stepAll N O sys dts p.1 p.2 s2 = .ok rs s' → PeceSteps f N N P.2.2 p.1 p.2 dts rs := by
  obtain ⟨hi, hcst⟩ := inv_after hN O calls hc s s1 mem hs n hrun
  have hN0 : (0 : ℝ) < N := by exact_mod_cast hN
  obtain ⟨σ, hδ, hσ⟩ : ∃ σ : ℝ, 0 < σ * (dt / N) ∧ ∀ d ∈ dts, 0 < σ * d := by
    rcases hdts with ⟨h1, h⟩ | ⟨h1, h⟩
    · exact ⟨1, by rw [one_mul]; positivity, fun dt hd => by rw [one_mul]; exact h dt hd⟩
    · refine ⟨-1, ?_, fun dt hd => by have := h dt hd; linarith⟩
      have : 0 < (-dt) / N := div_pos (by linarith) hN0
      rw [neg_div] at this
      linarith
  have hsat : (aabmInitializeWith N O start sys x t dt s1).Sat
      (fun p s2 => StartAt N f S x t (dt / N) N p s2) (fun _ _ => True) True := by
    unfold aabmInitializeWith
    rw [M.bind_ok (onCoef_ok (modify_ok _ _))]
    apply Res.Sat.bind
    refine (adamsCall_value hsys hf x t _).mono ?_ (fun _ _ _ => trivial) (fun h => h)
    rintro - s2 ⟨c2, -, d2⟩
    change s2.coef = s1.coef.reset at c2
    have hat := reset_at (N := N) hN hi hcst σ f x t
    have h0 : StartAt N f S x t (dt / N) 0 (x, t) s2 := by
      refine ⟨?_, ?_, ?_, rfl, d2⟩
      · rw [c2]; exact AdamsMem.mono hat.hist (Nat.zero_le _)
      · rw [c2]; show 1 = _; omega
      · rw [c2]; rfl
    have hlit : (dt / lit N : ℝ) = dt / N := by simp [lit]
    rw [hlit]
    have key : ∀ (m lo : ℕ) (p : V × ℝ) (s' : AdState ℝ V E W), lo + m ≤ N → StartAt N f S x t (dt / N) lo p s' →
        (foldN (fun _ => aabmInitStep N O start sys (dt / N)) m lo p s').Sat
          (fun p s2 => StartAt N f S x t (dt / N) (lo + m) p s2) (fun _ _ => True) True := by
      intro m
      induction m with
      | zero => intro lo p s' _ h; exact h
      | succ m ih =>
        intro lo p s' hle h
        rw [foldN]
        apply Res.Sat.bind
        refine (aabmInitStep_value N O hst hS hsys hf x t (dt / N) σ hδ lo (by omega) p s' h).mono ?_ (fun _ _ h => h) (fun h => h)
        intro p' s'' h'
        have := ih (lo + 1) p' s'' (by omega) h'
        rw [show lo + 1 + m = lo + (m + 1) by omega] at this
        exact this
    have := key N 0 (x, t) s2 (by omega) h0
    rw [Nat.zero_add] at this
    exact this
  refine ⟨?_, ?_⟩
  · intro hub; rw [hub] at hsat; exact hsat
  · intro p s2 e
    rw [e] at hsat
    have hsat : StartAt N f S x t (dt / N) N p s2 := hsat
    have hp := hsat.point
    have htime := startPoints_time f S x t (dt / N) N
    refine ⟨hp, by rw [htime]; field_simp, ?_⟩
    refine sat_run (stepAll_sat N O hsys hf σ dts hσ N _ p.1 p.2 s2 ⟨hsat.mem.hist (by rw [hsat.eo]; omega), ?_, startPoints_sorted f S x t _ σ hδ N, by rw [hsat.count]⟩ ?_)
    · rw [startPoints_cur, hp]
    · rw [hsat.eo]

/-! ## The controlled stepper -/

theorem ctrlCall_value {sys : Sys ℝ V W} (hsys : sys.Defined) {f : V → ℝ → V} (hf : Returns sys f) (x : V) (t : ℝ)
    (s : AdState ℝ V (CtrlMem V A) W) :
    (ctrlCall sys x t s).Sat (fun _ s' => s'.coef = s.coef ∧ s'.ext.dxdt = f x t) (fun _ s' => s'.coef = s.coef) True := by
  unfold ctrlCall
  have := hsys x t s.world
  cases h : sys x t s.world with
  | ok d w => exact ⟨rfl, hf _ _ _ _ _ h⟩
  | err e w => rfl
  | ub => exact absurd h this
  | div => trivial

/-- an accepted step -/
theorem acceptStep_pece (N : ℕ) (hN : N ≤ 13) (O : NumOps ℝ) (norm : V → ℝ) {sys : Sys ℝ V W} (hsys : sys.Defined) {f : V → ℝ → V}
    (hf : Returns sys f) (out : V) (dt dtNew : ℝ) (s : AdState ℝ V (CtrlMem V A) W) (h : ℕ → ℝ × V) (hm : AdamsMid N s.coef h dt s.coef.eo)
    (hne : ∀ j < s.coef.stepsInit, (h 0).1 + dt ≠ (h j).1) :
    (acceptStep N O norm sys out ((h 0).1 + dt) dtNew s).Sat
      (fun _ s' => AdamsHist N s'.coef (push ((h 0).1 + dt, f out ((h 0).1 + dt)) h) ∧ AfterAccept N s.coef s'.coef)
      (fun _ s' => AdamsHist N s'.coef h ∧ SameCount s.coef s'.coef) True := by
  have hi := hm.mem.inv
  have hp := hi.pos
  have hl := hi.le
  unfold acceptStep
  apply Res.Sat.bind
  refine (ctrlCall_value hsys hf out ((h 0).1 + dt) s).mono ?_ (fun _ s' h' => by rw [h']; exact ⟨hm.mem.hist le_rfl, SameCount.refl _⟩) (fun h => h)
  rintro - s1 ⟨c1, d1⟩
  rw [M.bind_ok (m := M.get) (w' := s1) (a := s1) rfl]
  apply Res.Sat.bind
  obtain ⟨C', e, hs, -, hnext⟩ := hm.next s1.ext.dxdt hne
  rw [← c1] at e
  refine onCoef_eq e ?_
  rw [M.bind_ok (onCoef_ok (modify_ok _ _))]
  obtain ⟨e1, e2, e3⟩ := confirm_count N hs
  have hinit : s.coef.eo ≤ (C'.confirm N).stepsInit - 1 := by
    rw [e2]
    have := hi.hist
    have := hi.cap
    split_ifs <;> omega
  generalize C'.confirm N = C at e1 e2 e3 hinit hnext ⊢
  generalize hs3 : ({ s1 with coef := C } : AdState ℝ V (CtrlMem V A) W) = s3
  have c3 : s3.coef = C := by subst hs3; rfl
  rw [M.bind_ok (m := M.get) (w' := s3) (a := s3) rfl, c3]
  have step : ∀ (b : Prop) [Decidable b] (i k : ℕ) (s' : AdState ℝ V (CtrlMem V A) W), i < 4 → (b → k < 14 ∧ k < N + 2) → s'.coef = C →
      ((if b then estimate N dtNew i k else pure ()) s').Sat (fun _ s'' => s''.coef = C) (fun _ _ => False) False := by
    intro b _ i k s' hi hk hc
    split
    · rename_i hb
      exact (estimate_sat N dtNew i k hi (hk hb).1 (hk hb).2 s').mono (fun _ _ h => h.trans hc) (by simp) (by simp)
    · exact hc
  apply Res.Sat.bind
  refine (estimate_sat N dtNew 2 C.eo (by omega) (by omega) (by omega) s3).mono ?_ (by simp) (by simp)
  intro _ s4 c4
  apply Res.Sat.bind
  refine (step (1 < C.eo) 1 (C.eo - 1) s4 (by omega) (fun _ => by omega) (c4.trans c3)).mono ?_ (by simp) (by simp)
  intro _ s5 c5
  apply Res.Sat.bind
  refine (step (2 < C.eo) 0 (C.eo - 2) s5 (by omega) (fun _ => by omega) c5).mono ?_ (by simp) (by simp)
  intro _ s6 c6
  apply Res.Sat.bind
  refine (step (C.eo < N ∧ C.eo < C.stepsInit - 1) 3 (C.eo + 1) s6 (by omega) (fun _ => by omega) c6).mono ?_ (by simp) (by simp)
  intro _ s7 c7
  rw [M.bind_ok (m := M.get) (w' := s7) (a := s7) rfl, onCoef_ok (modify_ok _ _)]
  have hr := adjustOrder_range O N norm s7.coef.eo (s7.coef.stepsInit - 1) s7.ext.xerr (by rw [c7]; omega) (by rw [c7]; omega)
    (by rw [c7]; omega)
  show AdamsHist N (s7.coef.setEo _) _ ∧ AfterAccept N s.coef (s7.coef.setEo _)
  generalize adjustOrder O N norm s7.coef.eo (s7.coef.stepsInit - 1) s7.ext.xerr = o at hr ⊢
  rw [c7] at hr ⊢
  rw [e1] at hr
  have hacc : AfterAccept N s.coef (C.setEo o) := ⟨hr.1, hr.2.1, hr.2.2.1, hr.2.2.2, e2, e3⟩
  refine ⟨?_, hacc⟩
  rw [← d1]
  exact hnext (C.setEo o) (hacc.inv hi) hr.2.2.1 rfl rfl rfl rfl rfl rfl

/-- a try of the controlled stepper -/
theorem cabmTryStep_pece (N : ℕ) (hN : N ≤ 13) (O : NumOps ℝ) (norm : V → ℝ) (P : AdamsAdjuster ℝ V A) {sys : Sys ℝ V W} (hsys : sys.Defined)
    {f : V → ℝ → V} (hf : Returns sys f) (x : V) (t dt : ℝ) (s : AdState ℝ V (CtrlMem V A) W) (h : ℕ → ℝ × V) (hm : AdamsHist N s.coef h)
    (h0 : h 0 = (t, f x t)) (hd : AdamsDistinct s.coef.stepsInit h (t + dt)) :
    (cabmTryStep N O norm P sys x t dt s).Sat
      (fun r s' => r.out = adamsPec f s.coef.eo h x t dt ∧
        if r.success then r.t = t + dt ∧ AdamsHist N s'.coef (push (t + dt, f r.out (t + dt)) h) ∧ AfterAccept N s.coef s'.coef
          else r.t = t ∧ AdamsHist N s'.coef h ∧ SameCount s.coef s'.coef)
      (fun _ s' => AdamsHist N s'.coef h ∧ SameCount s.coef s'.coef) True := by
  have ht : (h 0).1 = t := by rw [h0]
  unfold cabmTryStep
  apply Res.Sat.bind
  refine (adamsStepImpl_pec N O hsys hf x t dt s h hm h0 hd).mono ?_ (fun _ _ h => ⟨h.1, h.2.1⟩) (fun h => h)
  rintro r s1 ⟨r1, -, m1, h1, -⟩
  rw [← h1.eo] at m1
  have e1 : setErr 2 r.2 s1 = .ok () { s1 with ext := { s1.ext with xerr := fun j => if j = 2 then r.2 else s1.ext.xerr j } } := by
    unfold setErr
    rw [M.bind_ok (chk_ok (by omega) _)]
    rfl
  rw [M.bind_ok e1]
  generalize hs2 : ({ s1 with ext := { s1.ext with xerr := fun j => if j = 2 then r.2 else s1.ext.xerr j } } : AdState ℝ V (CtrlMem V A) W) = s2
  have c2 : s2.coef = s1.coef := by subst hs2; rfl
  obtain ⟨dtNew, s3, e3, c3⟩ : ∃ dtNew s3, callAdjuster P dt r.1 s2 = .ok dtNew s3 ∧ s3.coef = s2.coef := ⟨_, _, rfl, rfl⟩
  rw [M.bind_ok e3]
  rw [← c2, ← c3] at h1 m1
  split
  · apply Res.Sat.bind
    have := acceptStep_pece N hN O norm hsys hf r.1 dt dtNew s3 h m1 (by rw [h1.stepsInit, ht]; exact hd.1)
    rw [ht] at this
    refine this.mono ?_ (fun _ _ h => ⟨h.1, h1.trans h.2⟩) (fun h => h)
    rintro - s4 ⟨hh, a1, a2, a3, a4, a5, a6⟩
    refine ⟨r1, ?_⟩
    rw [if_pos rfl]
    exact ⟨rfl, hh, ⟨a1, a2, h1.eo ▸ a3, h1.eo ▸ a4, by rw [← h1.stepsInit]; exact a5, h1.ns ▸ a6⟩⟩
  · refine ⟨r1, ?_⟩
    rw [if_neg (by simp)]
    exact ⟨rfl, m1.mem.hist le_rfl, h1⟩

theorem tryAll_sat (N : ℕ) (hN : N ≤ 13) (O : NumOps ℝ) (norm : V → ℝ) (P : AdamsAdjuster ℝ V A) {sys : Sys ℝ V W} (hsys : sys.Defined)
    {f : V → ℝ → V} (hf : Returns sys f) (σ : ℝ)
    (dts : List ℝ) (hdts : ∀ dt ∈ dts, 0 < σ * dt) (n : ℕ) (h : ℕ → ℝ × V) (x : V) (t : ℝ) (s : AdState ℝ V (CtrlMem V A) W)
    (ha : AdamsAt N σ f n s.coef h x t) :
    (tryAll N O norm P sys dts x t s).Sat (fun rs _ => PeceTries f N n h x t dts rs) (fun _ _ => False) True := by
  induction dts generalizing n h x t s with
  | nil => exact trivial
  | cons dt dts ih =>
    have hdt := hdts dt (by simp)
    have hrest : ∀ d ∈ dts, 0 < σ * d := fun d hd => hdts d (by simp [hd])
    have ht : (h 0).1 = t := by rw [ha.cur]
    have hd : AdamsDistinct s.coef.stepsInit h (t + dt) := by rw [← ht]; exact ha.sorted.distinct ha.count hdt
    have hinv := ha.hist.inv
    have hk : 1 ≤ s.coef.eo ∧ s.coef.eo ≤ min (n + 1) N := by
      have := hinv.hist
      have := ha.count
      have := hinv.le
      have := hinv.pos
      omega
    unfold tryAll
    rw [M.bind_ok (m := M.get) (w' := s) (a := s) rfl]
    apply Res.Sat.bind
    refine (attempt_sat (cabmTryStep_pece N hN O norm P hsys hf x t dt s h ha.hist ha.cur hd)).mono ?_ (by simp) (fun h => h)
    intro o s1 ho
    cases o with
    | some r =>
      obtain ⟨hr, ho⟩ := ho
      by_cases hsucc : r.success
      · rw [if_pos hsucc] at ho
        obtain ⟨hrt, hh, hst⟩ := ho
        have h2 := hst.stepsInit
        have h3 := ha.count
        have hnext : AdamsAt N σ f (n + 1) s1.coef (push (t + dt, f r.out (t + dt)) h) r.out (t + dt) :=
          ⟨hh, rfl, by rw [← ht]; exact ha.sorted.push hdt _, by split_ifs at h2 <;> omega⟩
        dsimp only
        rw [if_pos hsucc, hrt]
        apply Res.Sat.bind
        refine (ih hrest (n + 1) _ r.out (t + dt) s1 hnext).mono ?_ (fun _ _ h => h) (fun h => h)
        intro rs s2 hrs
        refine ⟨hk.1, hk.2, hr, ?_⟩
        rw [if_pos hsucc]
        exact ⟨hrt, hrs⟩
      · rw [if_neg hsucc] at ho
        obtain ⟨hrt, hh, hst⟩ := ho
        have hnext : AdamsAt N σ f n s1.coef h x t := ⟨hh, ha.cur, ha.sorted, by rw [hst.stepsInit]; exact ha.count⟩
        dsimp only
        rw [if_neg hsucc]
        apply Res.Sat.bind
        refine (ih hrest n h x t s1 hnext).mono ?_ (fun _ _ h => h) (fun h => h)
        intro rs s2 hrs
        refine ⟨hk.1, hk.2, hr, ?_⟩
        rw [if_neg hsucc]
        exact ⟨hrt, hrs⟩
    | none =>
      obtain ⟨-, hh, hst⟩ := ho
      have hnext : AdamsAt N σ f n s1.coef h x t := ⟨hh, ha.cur, ha.sorted, by rw [hst.stepsInit]; exact ha.count⟩
      apply Res.Sat.bind
      exact (ih hrest n h x t s1 hnext).mono (fun rs s2 hrs => hrs) (fun _ _ h => h) (fun h => h)

/-- **C56**, the controlled stepper.  Whatever has been done with a `controlled_adams_bashforth_moulton` with `Steps ≤ 13` and any step adjuster
before, after a `reset` tries in one direction with any step sizes are steps of the variable step PECE method of Adams, with the order `k` chosen by
the stepper, from the points of the accepted tries: tries that are rejected and tries that throw leave no trace. -/
theorem controlled_adams_pece (N : ℕ) (hN : 1 ≤ N) (hN' : N ≤ 13) (O : NumOps ℝ) (norm : V → ℝ) (P : AdamsAdjuster ℝ V A)
    (calls : List (CabmCall ℝ V W)) (hc : ∀ c ∈ calls, c.Defined)
    (s s1 : AdState ℝ V (CtrlMem V A) W) (mem : AdamsCoef ℝ V) (hs : s.coef = mem.construct N) (n : ℕ)
    (hrun : runAll (CabmCall.run N O norm P) (CabmCall.afterThrow N) 0 calls s = .ok n s1)
    {sys : Sys ℝ V W} (hsys : sys.Defined) {f : V → ℝ → V} (hf : Returns sys f) (dts : List ℝ)
    (hdts : (∀ dt ∈ dts, 0 < dt) ∨ (∀ dt ∈ dts, dt < 0)) (x : V) (t : ℝ) :
    let r := (do onCoef (M.modify AdamsCoef.reset); tryAll N O norm P sys dts x t) s1
    r ≠ .ub ∧ ∀ rs s', r = .ok rs s' → PeceTries f N 0 (fun _ => (t, f x t)) x t dts rs := by
  obtain ⟨hi, hcst⟩ := inv_after_ctrl hN hN' O norm P calls hc s s1 mem hs n hrun
  obtain ⟨σ, hσ⟩ : ∃ σ : ℝ, ∀ dt ∈ dts, 0 < σ * dt := by
    rcases hdts with h | h
    · exact ⟨1, fun dt hd => by rw [one_mul]; exact h dt hd⟩
    · exact ⟨-1, fun dt hd => by have := h dt hd; linarith⟩
  refine sat_run ?_
  rw [M.bind_ok (onCoef_ok (modify_ok _ _))]
  exact tryAll_sat N hN' O norm P hsys hf σ dts hσ 0 _ x t _ (reset_at hN hi hcst σ f x t)

/-! ## Exactness -/

/-- The method of order `k` is exact for polynomials: if the derivative is a polynomial in the time of degree at most `k` (with coefficients in the
space of states), then a step from points at distinct times gives the exact solution, and if the degree is less than `k` the error
estimate is zero. -/
theorem adams_pece_exact (k : ℕ) (h : ℕ → ℝ × V) (x : V) (t dt : ℝ) (hd : AdamsDistinct k h (t + dt)) (m : ℕ) (a : ℕ → V)
    (hh : ∀ j < k, (h j).2 = ∑ i ∈ range m, (h j).1 ^ i • a i) :
    (m ≤ k + 1 → adamsPec (fun _ s => ∑ i ∈ range m, s ^ i • a i) k h x t dt =
        x + ∑ i ∈ range m, (((t + dt) ^ (i + 1) - t ^ (i + 1)) / ((i : ℝ) + 1)) • a i) ∧
      (m ≤ k → adamsP k h x t dt = x + ∑ i ∈ range m, (((t + dt) ^ (i + 1) - t ^ (i + 1)) / ((i : ℝ) + 1)) • a i) := by
  have hint : ∀ i : ℕ, (∫ s in t..(t + dt), (Polynomial.X ^ i : Polynomial ℝ).eval s) = ((t + dt) ^ (i + 1) - t ^ (i + 1)) / ((i : ℝ) + 1) := by
    intro i
    simp
  refine ⟨fun hm => ?_, fun hm => ?_⟩
  · unfold adamsPec adamsValue
    rw [times_push]
    congr 1
    have := lagrange_integral (k + 1) (push (t + dt) fun j => (h j).1)
      (fun j => (push (t + dt, ∑ i ∈ range m, (t + dt) ^ i • a i) h j).2) t (t + dt) (hd.injOn_push le_rfl) m
      (fun i => Polynomial.X ^ i) a
      (fun i hi => by rw [Polynomial.degree_X_pow]; exact_mod_cast (by omega))
      (fun j hj => by
        cases j with
        | zero => simp [push]
        | succ j =>
          show _ = (h j).2
          rw [hh j (by omega)]
          simp [push])
    rw [← this]
    exact sum_congr rfl fun i _ => by rw [hint i]
  · unfold adamsP adamsValue
    congr 1
    have := lagrange_integral k (fun j => (h j).1) (fun j => (h j).2) t (t + dt) (hd.injOn le_rfl) m (fun i => Polynomial.X ^ i) a
      (fun i hi => by rw [Polynomial.degree_X_pow]; exact_mod_cast (by omega))
      (fun j hj => by
        show _ = (h j).2
        rw [hh j hj]
        simp)
    rw [← this]
    exact sum_congr rfl fun i _ => by rw [hint i]

end Verif
