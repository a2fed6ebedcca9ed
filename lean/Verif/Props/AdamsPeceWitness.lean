import Verif.Props.AdamsPece

/-!
# Concrete runs of the adaptive Adams steppers, and `initialize_controlled`
-/

namespace Verif
open Finset
set_option linter.unusedSectionVars false
variable {V E W A : Type}

section Total
variable [AddCommGroup V] [Module ℝ V]

/-- With a system that always returns, all steps return. -/
theorem stepAll_total (N : ℕ) (O : NumOps ℝ) {sys : Sys ℝ V W} (hsys : sys.Total) (dts : List ℝ) (x : V) (t : ℝ) (s : AdState ℝ V E W)
    (h : AdamsInv N s.coef) : ∃ rs s', stepAll N O sys dts x t s = .ok rs s' ∧ rs.length = dts.length ∧ ∀ r ∈ rs, r.isSome := by
  induction dts generalizing x t s with
  | nil => exact ⟨[], s, rfl, rfl, by simp⟩
  | cons dt dts ih =>
    have hstep : ∃ r s', aabmDoStep N O sys x t dt s = .ok r s' := by
      obtain ⟨r, s1, h1⟩ := adamsStepImpl_total N O hsys x t dt s h
      unfold aabmDoStep
      rw [M.bind_ok h1]
      obtain ⟨s2, h2⟩ := adamsCall_total hsys r.1 (t + dt) s1
      rw [M.bind_ok h2, M.bind_ok (m := M.get) (w' := s2) (a := s2) rfl]
      obtain ⟨C, hC, -⟩ := adamsUpdate_ok N s2.dxdt 0 (by omega) s2.coef
      rw [M.bind_ok (onCoef_ok hC)]
      exact ⟨_, _, rfl⟩
    obtain ⟨r, s1, e1⟩ := hstep
    have hinv := (((aabmDoStep_sat N O hsys.defined x t dt s h).of_ok e1).1).inv h
    obtain ⟨rs, s2, e2, hl, hall⟩ := ih r.1 (t + dt) s1 hinv
    refine ⟨some r :: rs, s2, ?_, by simp [hl], ?_⟩
    · unfold stepAll
      have : attempt (aabmDoStep N O sys x t dt) s = .ok (some r) s1 := by unfold attempt; rw [e1]
      rw [M.bind_ok this]
      dsimp only
      rw [M.bind_ok e2]
      rfl
    · intro o ho
      rcases List.mem_cons.1 ho with rfl | ho
      · rfl
      · exact hall o ho

end Total

section Examples

/-- `x' = x t` -/
def productSys : Sys ℝ ℝ Unit := fun x t w => .ok (x * t) w

theorem productSys_total : productSys.Total := fun x t w => ⟨_, _, rfl⟩
theorem productSys_returns : Returns productSys fun x t => x * t := by
  intro x t w v w' h
  unfold productSys at h
  cases h
  rfl

/-- The hypotheses of `adaptive_adams_pece` are met by steps of different sizes on a new stepper, and the steps are three in number. -/
example (s : AdState ℝ ℝ Unit Unit) (mem : AdamsCoef ℝ ℝ) (hs : s.coef = mem.construct 2) (O : NumOps ℝ) (a b c x t : ℝ)
    (ha : 0 < a) (hb : 0 < b) (hc : 0 < c) :
    ∃ r1 r2 r3, PeceSteps (fun x t => x * t) 2 0 (fun _ => (t, x * t)) x t [a, b, c] [some r1, some r2, some r3] := by
  have hpece := adaptive_adams_pece 2 (by norm_num) O [] (by simp) s s mem hs 0 rfl (productSys_total.defined) productSys_returns
    [a, b, c] (Or.inl (by simp [ha, hb, hc])) x t
  have hinv : AdamsInv 2 ({ s with coef := s.coef.reset } : AdState ℝ ℝ Unit Unit).coef := by
    show AdamsInv 2 s.coef.reset
    rw [hs]
    exact ⟨le_rfl, by show 1 ≤ 2; omega, le_rfl, by show 1 ≤ 3; omega, rfl⟩
  obtain ⟨rs, s', e, hl, hall⟩ := stepAll_total 2 O productSys_total [a, b, c] x t _ hinv
  have h := hpece.2 rs s' ((M.bind_ok (onCoef_ok (modify_ok _ _)) _).trans e)
  match rs, hl, hall, h with
  | [o1, o2, o3], _, hall, h =>
    obtain ⟨r1, rfl⟩ := Option.isSome_iff_exists.1 (hall o1 (by simp))
    obtain ⟨r2, rfl⟩ := Option.isSome_iff_exists.1 (hall o2 (by simp))
    obtain ⟨r3, rfl⟩ := Option.isSome_iff_exists.1 (hall o3 (by simp))
    exact ⟨r1, r2, r3, h⟩

/-- The weights are what they should be: the corrector of order one is the trapezoidal rule. -/
theorem adamsPec_one (f : ℝ → ℝ → ℝ) (h : ℕ → ℝ × ℝ) (x t dt : ℝ) (ht : (h 0).1 = t) (hdt : dt ≠ 0) :
    adamsPec f 1 h x t dt = x + dt / 2 * ((h 0).2 + f (x + dt * (h 0).2) (t + dt)) := by
  have hd : AdamsDistinct 1 h (t + dt) := by
    refine ⟨fun j hj => ?_, fun i hi j hj _ => by omega⟩
    obtain rfl : j = 0 := by omega
    rw [ht]
    intro e
    exact hdt (by linarith)
  have hp : adamsP 1 h x t dt = x + dt * (h 0).2 := by
    have := (adams_pece_exact 1 h x t dt hd 1 (fun _ => (h 0).2) (fun j hj => by
      obtain rfl : j = 0 := by omega
      simp)).2 le_rfl
    rw [this]
    simp
  have hc : adamsPec f 1 h x t dt = adamsPec (fun _ s => f (x + dt * (h 0).2) (t + dt) * ((s - t) / dt) + (h 0).2 * ((t + dt - s) / dt)) 1 h x t dt := by
    unfold adamsPec
    rw [hp]
    have e1 : (t + dt - t) / dt = 1 := by field_simp; ring
    have e2 : (t + dt - (t + dt)) / dt = 0 := by ring
    simp only [e1, e2, mul_one, mul_zero, add_zero]
  rw [hc]
  set F := f (x + dt * (h 0).2) (t + dt) with hF
  have key := (adams_pece_exact 1 h x t dt hd 2 (fun i => if i = 0 then (h 0).2 - (F - (h 0).2) / dt * t else (F - (h 0).2) / dt) (by
    intro j hj
    obtain rfl : j = 0 := by omega
    rw [sum_range_succ, sum_range_one]
    simp [ht]
    ring)).1 (by norm_num)
  have e3 : (fun (_ : ℝ) s => F * ((s - t) / dt) + (h 0).2 * ((t + dt - s) / dt)) =
      fun (_ : ℝ) s => ∑ i ∈ range 2, s ^ i • (if i = 0 then (h 0).2 - (F - (h 0).2) / dt * t else (F - (h 0).2) / dt) := by
    funext _ s
    rw [sum_range_succ, sum_range_one]
    simp
    field_simp
    ring
  rw [e3, key, sum_range_succ, sum_range_one]
  simp
  field_simp
  ring

end Examples

/-! ## `initialize_controlled` stores wrong times -/

section Controlled
variable [AddCommGroup V] [Module ℝ V]

/-- what the coefficients know after `n` starting steps -/
structure StartMem (N : ℕ) (f : V → ℝ → V) (S : V → V → ℝ → ℝ → V) (x : V) (t δ : ℝ) (n : ℕ) (C : AdamsCoef ℝ V) : Prop where
  mem : AdamsMem N C (startPoints f S x t δ n).2.2 n
  eo : C.eo = min (n + 1) N
  count : C.stepsInit = n + 1

theorem StartMem.next {N : ℕ} (O : NumOps ℝ) {f : V → ℝ → V} {S : V → V → ℝ → ℝ → V} {x : V} {t δ σ : ℝ} (hδ : 0 < σ * δ) {n : ℕ} (hn : n < N)
    {C : AdamsCoef ℝ V} (h : StartMem N f S x t δ n C) {d : V}
    (hdv : d = f (startPoints f S x t δ (n + 1)).1 (startPoints f S x t δ (n + 1)).2.1) :
    ∃ C3 C4, adamsPredict N O (startPoints f S x t δ n).2.1 δ C = .ok () C3 ∧ adamsUpdate N d 0 C3 = .ok () C4 ∧
      StartMem N f S x t δ (n + 1) ((C4.confirm N).raise N) := by
  have hnew0 : startPoints f S x t δ (n + 1) = (S (startPoints f S x t δ n).1 (f (startPoints f S x t δ n).1 (startPoints f S x t δ n).2.1) (startPoints f S x t δ n).2.1 δ,
    (startPoints f S x t δ n).2.1 + δ, push ((startPoints f S x t δ n).2.1 + δ, f (S (startPoints f S x t δ n).1 (f (startPoints f S x t δ n).1 (startPoints f S x t δ n).2.1) (startPoints f S x t δ n).2.1 δ) ((startPoints f S x t δ n).2.1 + δ)) (startPoints f S x t δ n).2.2) := rfl
  rw [hnew0] at hdv
  have hcur := startPoints_cur f S x t δ n
  have hmem := h.mem
  have hsorted := startPoints_sorted f S x t δ σ hδ n
  generalize startPoints f S x t δ n = P at *
  have ht : (P.2.2 0).1 = P.2.1 := by rw [hcur]
  have hd : AdamsDistinct C.stepsInit P.2.2 (P.2.1 + δ) := by rw [← ht]; exact hsorted.distinct (le_of_eq h.count) hδ
  obtain ⟨C3, e3, m3, k3⟩ := hmem.predict O P.2.1 δ ht hd.1
  have hv : n ≤ C3.eo := by rw [k3.eo, h.eo]; omega
  obtain ⟨C4, e4, k4, -, hcon, htime, htab⟩ := m3.finish hv d (by rw [k3.stepsInit, ht]; exact hd.1)
  refine ⟨C3, C4, e3, e4, ?_⟩
  have hafter : AfterStep N C ((C4.confirm N).raise N) := afterStep_of N (k3.trans k4)
  have hinv := hafter.inv h.mem.inv
  have f1 : ((C4.confirm N).raise N).stepsInit = (C4.confirm N).stepsInit := by unfold AdamsCoef.raise; split <;> rfl
  have f2 : ((C4.confirm N).raise N).beta = (C4.confirm N).beta := by unfold AdamsCoef.raise; split <;> rfl
  have f3 : ((C4.confirm N).raise N).c = (C4.confirm N).c := by unfold AdamsCoef.raise; split <;> rfl
  have f4 : ((C4.confirm N).raise N).g = (C4.confirm N).g := by unfold AdamsCoef.raise; split <;> rfl
  have f5 : ((C4.confirm N).raise N).time = (C4.confirm N).time := by unfold AdamsCoef.raise; split <;> rfl
  have f6 : ((C4.confirm N).raise N).phi = (C4.confirm N).phi := by unfold AdamsCoef.raise; split <;> rfl
  have hcount := hafter.stepsInit
  have heo := hafter.eo
  rw [h.count] at hcount
  rw [h.eo] at heo
  refine ⟨?_, ?_, ?_⟩
  · rw [hnew0]
    dsimp only at hdv ⊢
    rw [← hdv, ← ht]
    refine ⟨hinv, ⟨?_, ?_, ?_, ?_, ?_, ?_⟩, ?_, ?_⟩
    · rw [f2]; exact hcon.beta0
    · rw [f2]; exact hcon.beta1
    · rw [f3]; exact hcon.c0
    · rw [f3]; exact hcon.c1
    · rw [f4]; exact hcon.g0
    · rw [f4]; exact hcon.g1
    · rw [f1, f5]; exact htime
    · rw [f6]; exact htab
  · split_ifs at heo <;> omega
  · rw [if_pos (by omega)] at hcount
    omega

/-- one starting step of `initialize_controlled` with a stepper that accepts every step and keeps the step size -/
theorem cabmInitStep_value (N : ℕ) (O : NumOps ℝ) {tryOther : V → ℝ → ℝ → M W (CabmOut ℝ V)} (hst : ∀ x t dt w, tryOther x t dt w ≠ .ub)
    {S : V → ℝ → ℝ → V} (hS : ∀ x t dt w r w', tryOther x t dt w = .ok r w' → r = ⟨true, S x t dt, t + dt, dt⟩)
    {sys : Sys ℝ V W} (hsys : sys.Defined) {f : V → ℝ → V} (hf : Returns sys f) (x : V) (t δ σ : ℝ) (hδ : 0 < σ * δ) (n : ℕ) (hn : n < N)
    (s : AdState ℝ V (CtrlMem V A) W) (h : StartMem N f (fun x _ => S x) x t δ n s.coef) :
    (cabmInitStep N O tryOther sys
      ((startPoints f (fun x _ => S x) x t δ n).1, (startPoints f (fun x _ => S x) x t δ n).2.1, δ) s).Sat
      (fun p' s' => StartMem N f (fun x _ => S x) x t δ (n + 1) s'.coef ∧
        p' = ((startPoints f (fun x _ => S x) x t δ (n + 1)).1, (startPoints f (fun x _ => S x) x t δ (n + 1)).2.1, δ)) (fun _ _ => True) True := by
  have hnext := fun d hd => h.next O hδ hn (d := d) hd
  have hnew1 : (startPoints f (fun x _ => S x) x t δ (n + 1)).1 = S (startPoints f (fun x _ => S x) x t δ n).1 (startPoints f (fun x _ => S x) x t δ n).2.1 δ := rfl
  have hnew2 : (startPoints f (fun x _ => S x) x t δ (n + 1)).2.1 = (startPoints f (fun x _ => S x) x t δ n).2.1 + δ := rfl
  rw [hnew1, hnew2] at hnext ⊢
  generalize startPoints f (fun x _ => S x) x t δ n = P at *
  unfold cabmInitStep
  apply Res.Sat.bind
  have hu : (untilSuccess (A := A) tryOther P.1 P.2.1 δ s).Sat
      (fun r s' => s'.coef = s.coef ∧ r = ⟨true, S P.1 P.2.1 δ, P.2.1 + δ, δ⟩) (fun _ _ => True) True := by
    have ho := outside_value (a := (⟨true, S P.1 P.2.1 δ, P.2.1 + δ, δ⟩ : CabmOut ℝ V)) (fun w => hst P.1 P.2.1 δ w)
      (fun w b w' e => hS _ _ _ _ _ _ e) s
    unfold untilSuccess
    cases e : outside (E := CtrlMem V A) (K := ℝ) (V := V) (tryOther P.1 P.2.1 δ) s with
    | ok r s1 =>
      rw [e] at ho
      obtain ⟨h1, rfl⟩ := ho
      rw [whileM_step_ok rfl e, whileM_stop (by simp)]
      exact ⟨by rw [h1], rfl⟩
    | err x s1 => rw [whileM_true rfl, M.bind_err (h := e)]; trivial
    | ub => rw [e] at ho; exact ho.elim
    | div => rw [whileM_true rfl, M.bind_div (h := e)]; trivial
  refine hu.mono ?_ (fun _ _ _ => trivial) (fun h => h)
  rintro r s1 ⟨c1, rfl⟩
  apply Res.Sat.bind
  refine (ctrlCall_value hsys hf _ _ s1).mono ?_ (fun _ _ _ => trivial) (fun h => h)
  rintro - s2 ⟨c2, d2⟩
  obtain ⟨C3, C4, e3, e4, hm⟩ := hnext s2.ext.dxdt d2
  apply Res.Sat.bind
  have ht : P.2.1 + δ - δ = P.2.1 := by ring
  dsimp only
  rw [ht]
  rw [← c1, ← c2] at e3
  refine onCoef_eq e3 ?_
  rw [M.bind_ok (m := M.get) rfl]
  apply Res.Sat.bind
  refine onCoef_eq e4 ?_
  exact ⟨hm, rfl⟩

/-- **C62**, partial: `initialize_controlled` gives correct starting points if the other stepper accepts every step and does not change the
step size; then the tries that follow are PECE steps from the points found.  Missing: steppers that change the step size, for which it is
false (`initialize_controlled_wrong`). -/
theorem initialize_controlled_partial (N : ℕ) (hN : 1 ≤ N) (hN' : N ≤ 13) (O : NumOps ℝ) (norm : V → ℝ) (P : AdamsAdjuster ℝ V A)
    (calls : List (CabmCall ℝ V W)) (hc : ∀ c ∈ calls, c.Defined)
    (s s1 : AdState ℝ V (CtrlMem V A) W) (mem : AdamsCoef ℝ V) (hs : s.coef = mem.construct N) (n : ℕ)
    (hrun : runAll (CabmCall.run N O norm P) (CabmCall.afterThrow N) 0 calls s = .ok n s1)
    {tryOther : V → ℝ → ℝ → M W (CabmOut ℝ V)} (hst : ∀ x t dt w, tryOther x t dt w ≠ .ub)
    {S : V → ℝ → ℝ → V} (hS : ∀ x t dt w r w', tryOther x t dt w = .ok r w' → r = ⟨true, S x t dt, t + dt, dt⟩)
    {sys : Sys ℝ V W} (hsys : sys.Defined) {f : V → ℝ → V} (hf : Returns sys f) (x : V) (t dt : ℝ) (dts : List ℝ)
    (hdts : (0 < dt ∧ ∀ d ∈ dts, 0 < d) ∨ (dt < 0 ∧ ∀ d ∈ dts, d < 0)) :
    cabmInitializeControlled N O tryOther sys x t dt s1 ≠ .ub ∧
    ∀ p s2, cabmInitializeControlled N O tryOther sys x t dt s1 = .ok p s2 →
      let Q := startPoints f (fun x _ => S x) x t dt N
      p = (Q.1, t + N * dt, dt) ∧ tryAll N O norm P sys dts p.1 p.2.1 s2 ≠ .ub ∧
      ∀ rs s', tryAll N O norm P sys dts p.1 p.2.1 s2 = .ok rs s' → PeceTries f N N Q.2.2 p.1 p.2.1 dts rs := by
  obtain ⟨hi, hcst⟩ := inv_after_ctrl hN hN' O norm P calls hc s s1 mem hs n hrun
  obtain ⟨σ, hδ, hσ⟩ : ∃ σ : ℝ, 0 < σ * dt ∧ ∀ d ∈ dts, 0 < σ * d := by
    rcases hdts with ⟨h1, h⟩ | ⟨h1, h⟩
    · exact ⟨1, by rw [one_mul]; exact h1, fun dt hd => by rw [one_mul]; exact h dt hd⟩
    · exact ⟨-1, by linarith, fun dt hd => by have := h dt hd; linarith⟩
  have hsat : (cabmInitializeControlled N O tryOther sys x t dt s1).Sat
      (fun p s2 => StartMem N f (fun x _ => S x) x t dt N s2.coef ∧
        p = ((startPoints f (fun x _ => S x) x t dt N).1, (startPoints f (fun x _ => S x) x t dt N).2.1, dt)) (fun _ _ => True) True := by
    unfold cabmInitializeControlled
    rw [M.bind_ok (onCoef_ok (modify_ok _ _))]
    have hat := reset_at (N := N) hN hi hcst σ f x t
    have h0 : StartMem N f (fun x _ => S x) x t dt 0 s1.coef.reset := by
      refine ⟨AdamsMem.mono hat.hist (Nat.zero_le _), ?_, rfl⟩
      show 1 = _
      omega
    have key : ∀ (m lo : ℕ) (p : V × ℝ × ℝ) (s' : AdState ℝ V (CtrlMem V A) W), lo + m ≤ N → StartMem N f (fun x _ => S x) x t dt lo s'.coef →
        p = ((startPoints f (fun x _ => S x) x t dt lo).1, (startPoints f (fun x _ => S x) x t dt lo).2.1, dt) →
        (foldN (fun _ => cabmInitStep N O tryOther sys) m lo p s').Sat
          (fun p s2 => StartMem N f (fun x _ => S x) x t dt (lo + m) s2.coef ∧
            p = ((startPoints f (fun x _ => S x) x t dt (lo + m)).1, (startPoints f (fun x _ => S x) x t dt (lo + m)).2.1, dt))
          (fun _ _ => True) True := by
      intro m
      induction m with
      | zero => intro lo p s' _ h hp; exact ⟨h, hp⟩
      | succ m ih =>
        intro lo p s' hle h hp
        rw [foldN]
        apply Res.Sat.bind
        rw [hp]
        refine (cabmInitStep_value N O hst hS hsys hf x t dt σ hδ lo (by omega) s' h).mono ?_ (fun _ _ h => h) (fun h => h)
        rintro p' s'' ⟨h', hp'⟩
        have := ih (lo + 1) p' s'' (by omega) h' hp'
        rw [show lo + 1 + m = lo + (m + 1) by omega] at this
        exact this
    have := key N 0 (x, t, dt) { s1 with coef := s1.coef.reset } (by omega) h0 rfl
    rw [Nat.zero_add] at this
    exact this
  refine ⟨?_, ?_⟩
  · intro hub; rw [hub] at hsat; exact hsat
  · intro p s2 e
    rw [e] at hsat
    obtain ⟨hm, hp⟩ := hsat
    have htime := startPoints_time f (fun x _ => S x) x t dt N
    refine ⟨by rw [hp, htime], ?_⟩
    refine sat_run (tryAll_sat N hN' O norm P hsys hf σ dts hσ N _ p.1 p.2.1 s2 ⟨hm.mem.hist (by rw [hm.eo]; omega), ?_,
      startPoints_sorted f _ x t _ σ hδ N, by rw [hm.count]⟩)
    rw [startPoints_cur, hp]

/-- Euler steps, always accepted: the hypotheses of `initialize_controlled_partial` can be met, also after other calls. -/
example (s s1 : AdState ℝ ℝ (CtrlMem ℝ Unit) Unit) (mem : AdamsCoef ℝ ℝ) (hs : s.coef = mem.construct 5) (O : NumOps ℝ) (norm : ℝ → ℝ)
    (P : AdamsAdjuster ℝ ℝ Unit) (x t : ℝ) (n : ℕ)
    (hrun : runAll (CabmCall.run 5 O norm P) (CabmCall.afterThrow 5) 0 [CabmCall.tryStep productSys x t 1] s = .ok n s1) :
    cabmInitializeControlled 5 O (fun x t dt w => .ok ⟨true, x + dt * (x * t), t + dt, dt⟩ w) productSys x t 1 s1 ≠ .ub :=
  (initialize_controlled_partial 5 (by norm_num) (by norm_num) O norm P _
    (fun c hc => by rw [List.mem_singleton.1 hc]; exact productSys_total.defined) s s1 mem hs n hrun
    (tryOther := fun x t dt w => .ok ⟨true, x + dt * (x * t), t + dt, dt⟩ w) (fun _ _ _ _ h => nomatch h)
    (S := fun x t dt => x + dt * (x * t)) (fun _ _ _ _ _ _ h => by cases h; rfl)
    productSys_total.defined productSys_returns x t 1 [1, 1 / 2] (Or.inl ⟨one_pos, by simp⟩)).1

end Controlled

section Wrong

/-- the loop of `initialize_controlled` if every try succeeds -/
def initStepOnce (N : ℕ) (O : NumOps ℚ) (tryOther : ℚ → ℚ → ℚ → M W (CabmOut ℚ ℚ)) (sys : Sys ℚ ℚ W) (p : ℚ × ℚ × ℚ) :
    M (AdState ℚ ℚ (CtrlMem ℚ A) W) (ℚ × ℚ × ℚ) := do
  let r ← outside (tryOther p.1 p.2.1 p.2.2)
  ctrlCall sys r.out r.t
  onCoef (adamsPredict N O (r.t - r.dt) r.dt)
  let s ← M.get
  onCoef (adamsUpdate N s.ext.dxdt 0)
  onCoef (M.modify (AdamsCoef.confirm N))
  onCoef (M.modify (AdamsCoef.raise N))
  pure (r.out, r.t, r.dt)

theorem cabmInitStep_once (N : ℕ) (O : NumOps ℚ) {tryOther : ℚ → ℚ → ℚ → M W (CabmOut ℚ ℚ)}
    (h : ∀ x t dt w, ∃ r w', tryOther x t dt w = .ok r w' ∧ r.success = true) (sys : Sys ℚ ℚ W) :
    (cabmInitStep N O tryOther sys : _ → M (AdState ℚ ℚ (CtrlMem ℚ A) W) _) = initStepOnce N O tryOther sys := by
  funext p s
  have e : untilSuccess (A := A) tryOther p.1 p.2.1 p.2.2 s = outside (tryOther p.1 p.2.1 p.2.2) s := by
    obtain ⟨r, w', hr, hs⟩ := h p.1 p.2.1 p.2.2 s.world
    have ho : outside (E := CtrlMem ℚ A) (K := ℚ) (V := ℚ) (tryOther p.1 p.2.1 p.2.2) s = .ok r { s with world := w' } := by
      unfold outside; rw [hr]
    unfold untilSuccess
    rw [whileM_step_ok rfl ho, whileM_stop (by simp [hs]), ho]
  unfold cabmInitStep initStepOnce
  rw [M.bind_apply, M.bind_apply, e]

/-- A controlled stepper which solves `x' = t` exactly, accepts every step and doubles the step size. -/
def exactTry (x t dt : ℚ) : M Unit (CabmOut ℚ ℚ) := fun w => .ok ⟨true, x + t * dt + dt * dt / 2, t + dt, 2 * dt⟩ w

/-- `x' = t` -/
def timeSys : Sys ℚ ℚ Unit := fun _ t w => .ok t w

/-- an adjuster that accepts every step -/
def steadyAdjuster : AdamsAdjuster ℚ ℚ Unit := ⟨fun _ dt e _ _ a => (dt, e, a), 1⟩

/-- a new controlled stepper, its memory filled with zeros -/
def newMem : AdState ℚ ℚ (CtrlMem ℚ Unit) Unit :=
  ⟨AdamsCoef.construct 2 ⟨0, 0, 0, fun _ _ => 0, fun _ _ => 0, fun _ => 0, fun _ => 0, fun _ => 0⟩, 0, ⟨0, fun _ => 0, ()⟩, ()⟩

/-- the result of a run -/
def resOut {S : Type} : Res S (CabmOut ℚ ℚ) → Option (ℚ × ℚ)
  | .ok r _ => some (r.t, r.out)
  | _ => none

/-- **C62** violated: it tells the coefficients the next step size instead of the size of the step just taken, so
the times stored are wrong whenever the step size changes.  For `x' = t`, started with exact values with steps of size 1 and 2, the next step of order two
(which is exact for linear derivatives, see `adams_pece_exact`) from `t = 3` to `t = 7` gives `143 / 6` instead of `49 / 2`. -/
theorem initialize_controlled_wrong :
    resOut ((do let p ← cabmInitializeControlled 2 ratOps exactTry timeSys 0 0 1
                cabmTryStep 2 ratOps (fun x => x) steadyAdjuster timeSys p.1 p.2.1 p.2.2) newMem) = some (7, 143 / 6) ∧
      (∀ τ : ℝ, HasDerivAt (fun τ : ℝ => τ ^ 2 / 2) τ τ) ∧ (7 : ℝ) ^ 2 / 2 ≠ 143 / 6 := by
  refine ⟨?_, ?_, by norm_num⟩
  · unfold cabmInitializeControlled
    rw [cabmInitStep_once 2 ratOps (tryOther := exactTry) (fun x t dt w => ⟨_, _, rfl, rfl⟩) timeSys]
    decide +kernel
  · intro τ
    have := (hasDerivAt_pow 2 τ).div_const 2
    simpa using this

/-- The same start from the stepper's own `initialize`-like points with the right times is exact: two steps of the stepper itself with sizes 1 and 2 and a
third one of size 4. -/
example : resOut ((do let r ← aabmDoStep 2 ratOps timeSys 0 0 1
                      let r ← aabmDoStep 2 ratOps timeSys r.1 1 2
                      cabmTryStep 2 ratOps (fun x => x) steadyAdjuster timeSys r.1 3 4) newMem) = some (7, 49 / 2) := by
  decide +kernel

end Wrong
end Verif
