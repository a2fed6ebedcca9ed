import Verif.Props.Reversed
import Verif.Props.Multistep

/-! # C95 for the Adams methods -/

namespace Verif
open SimCtx
variable {K V W : Type} [Field K] [LinearOrder K] [AddCommGroup V] [Module K V]

theorem abFormula_reversed (coef : List K) (x : V) (dt : K) (ks : List V) : abFormula coef x (-dt) (ks.map (- ·)) = abFormula coef x dt ks := by
  unfold abFormula
  rw [lin_cons, lin_cons]
  congr 1
  change (List.map _ _).sum = (List.map _ _).sum
  congr 1
  induction coef generalizing ks with
  | nil => rfl
  | cons a l ih =>
    cases ks with
    | nil => rfl
    | cons k ks =>
      simp only [List.map_cons, List.zip_cons_cons, ih ks]
      congr 1
      rw [neg_mul, neg_smul, smul_neg, neg_neg]

theorem init_recipe_reversed (s : InitStepper K) (hs : s.inPlace = true) (sys : Sys K V W) (x k : V) (t dt : K) :
    s.recipe (reversedSys sys) x (-k) (-t) (-dt) = s.recipe sys x k t dt := by
  cases s with
  | explicit s => exact recipe_reversed s sys x k t dt
  | extrapolation kmax => cases hs

/-- the result with negated derivatives -/
def negPast (r : V × List V) : V × List V := (r.1, r.2.map (- ·))

theorem abValue_reversed (N : ℕ) (coef : List K) (init : InitStepper K) (hi : init.inPlace = true) (sys : Sys K V W) (past : List V) (x : V) (t dt : K) :
    abValue N coef init (reversedSys sys) (past.map (- ·)) x (-t) (-dt) = negPast <$> abValue N coef init sys past x t dt := by
  unfold abValue
  rw [reversedSys_bind, map_bind]
  congr 1
  funext k
  rw [init_recipe_reversed init hi, List.length_map, ← List.map_cons (f := fun v : V => -v), abFormula_reversed]
  dsimp only
  rw [← List.map_take]
  split
  · rw [map_bind]
    rfl
  · rfl

theorem abmValue_reversed (N : ℕ) (cb cm : List K) (init : InitStepper K) (hi : init.inPlace = true) (sys : Sys K V W) (past : List V) (x : V) (t dt : K) :
    abmValue N cb cm init (reversedSys sys) (past.map (- ·)) x (-t) (-dt) = negPast <$> abmValue N cb cm init sys past x t dt := by
  have ht : -t + -dt = -(t + dt) := by ring
  unfold abmValue
  rw [reversedSys_bind, map_bind]
  congr 1
  funext k
  rw [init_recipe_reversed init hi, List.length_map, ← List.map_cons (f := fun v : V => -v), abFormula_reversed, ht]
  dsimp only
  rw [reversedSys_bind]
  simp only [← List.map_cons (f := fun v : V => -v), abFormula_reversed]
  rw [← List.map_take]
  split
  · rw [map_bind]
    rfl
  · rw [map_bind]
    rfl

variable [IsStrictOrderedRing K]

omit [Module K V] in
theorem adams_reverses {step step' : Loc → K → K → StepM K V W Unit} {value value' : List V → V → K → K → M W (V × List V)} {os : List Owner} (N : ℕ)
    (hstep : ∀ t dt h past, AdamsMemory N h past → AdamsOutcome os N h (.user 0) (step (.user 0) t dt h) (value past (h.state (.user 0)) t dt h.world))
    (hstep' : ∀ t dt h past, AdamsMemory N h past → AdamsOutcome os N h (.user 0) (step' (.user 0) t dt h) (value' past (h.state (.user 0)) t dt h.world))
    (hv : ∀ past x t dt, value' (past.map (- ·)) x (-t) (-dt) = negPast <$> value past x t dt) {eps : K} (heps : 0 ≤ eps) :
    BasicReverses eps (AdamsMirrored N) (stepperObject (K := K) step) (stepperObject (K := K) step') := by
  refine basic_reverses heps ⟨?_, by intros; exact plainCtx_mono _ _⟩
  rintro q q' x _ t _ d _ w w' ⟨⟨past, hq, hq'⟩, hw⟩ rfl rfl ⟨-, rfl⟩
  obtain rfl : w' = mirrorWorld w := hw
  have mem : ∀ (q : Heap K V W) past, AdamsMemory N q past → AdamsMemory N ((q.set (.user 0) x).withWorld w.1) past := by
    rintro q past ⟨h1, h2, h3⟩
    refine ⟨h1, h2, fun i v hv => ?_⟩
    rw [← h3 i v hv]
    simp [Heap.withWorld, Heap.set_state_apply, bufData]
  have e0 : ∀ q : Heap K V W, ((q.set (.user 0) x).withWorld w.1).state (.user 0) = x ∧ ((q.set (.user 0) x).withWorld w.1).world = w.1 :=
    fun q => ⟨by simp [Heap.withWorld], rfl⟩
  have h1 := hstep t d _ _ (mem q _ hq)
  have h2 := hstep' (-t) (-d) _ _ (mem q' _ hq')
  rw [(e0 q).1, (e0 q).2] at h1
  rw [(e0 q').1, (e0 q').2, hv, map_eq_pure_bind, M.bind_apply] at h2
  simp only [stepperObject, mirrorWorld]
  cases e : value past x t d w.1 with
  | ok r v =>
    rw [e] at h1 h2
    obtain ⟨g1, a1, b1, c1, m1, -⟩ := h1
    obtain ⟨g2, a2, b2, c2, m2, -⟩ := h2
    rw [a1, a2]
    refine .ok ⟨⟨⟨r.2, m1, m2⟩, ?_⟩, ?_⟩
    · show _ = _
      simp [mirrorWorld, b1, b2]
    · rw [c1, c2]
      rfl
  | err y v =>
    rw [e] at h1 h2
    obtain ⟨g1, a1, b1, -⟩ := h1
    obtain ⟨g2, a2, b2, -⟩ := h2
    rw [a1, a2]
    refine .err ?_
    show _ = _
    simp [mirrorWorld, b1, b2]
  | ub => rw [e] at h1 h2; rw [h1, h2]; exact .ub
  | div => rw [e] at h1 h2; rw [h1, h2]; exact .div

/-- **C95**, `adams_bashforth`, with any coefficients and an initialising stepper that can be used in place. -/
theorem adams_bashforth_reverses (N : ℕ) (coef : List K) (init : InitStepper K) (hw : init.WellFormed) (hi : init.inPlace = true) (sys : Sys K V W) {eps : K}
    (heps : 0 ≤ eps) : BasicReverses eps (AdamsMirrored N) (stepperObject (K := K) fun x t dt => abStep N coef init sys false x t x dt)
      (stepperObject (K := K) fun x t dt => abStep N coef init (reversedSys sys) false x t x dt) :=
  adams_reverses N (fun _ _ h _ hm => abStep_value N coef init hw _ _ _ _ _ h _ hm (user_not_owned _ _) (user_not_owned _ _) fun _ => .inl hi)
    (fun _ _ h _ hm => abStep_value N coef init hw _ _ _ _ _ h _ hm (user_not_owned _ _) (user_not_owned _ _) fun _ => .inl hi)
    (fun past x t dt => abValue_reversed N coef init hi sys past x t dt) heps

/-- **C95**, `adams_bashforth_moulton`. -/
theorem adams_bashforth_moulton_reverses (N : ℕ) (cb cm : List K) (hcm : cm.length ≤ N) (init : InitStepper K) (hw : init.WellFormed) (hi : init.inPlace = true)
    (sys : Sys K V W) {eps : K} (heps : 0 ≤ eps) :
    BasicReverses eps (AdamsMirrored N) (stepperObject (K := K) fun x t dt => abmStep N cb cm init sys false x t x dt)
      (stepperObject (K := K) fun x t dt => abmStep N cb cm init (reversedSys sys) false x t x dt) :=
  adams_reverses N (fun _ _ h _ hm => abmStep_value N cb cm hcm init hw _ false _ _ _ _ h _ hm (user_not_owned _ _) (user_not_owned _ _) (by simp)
      fun _ => .inl hi)
    (fun _ _ h _ hm => abmStep_value N cb cm hcm init hw _ false _ _ _ _ h _ hm (user_not_owned _ _) (user_not_owned _ _) (by simp) fun _ => .inl hi)
    (fun past x t dt => abmValue_reversed N cb cm init hi sys past x t dt) heps

/-! ## The hypotheses can be met -/

omit [LinearOrder K] [Module K V] [IsStrictOrderedRing K] in
/-- Two new or reset steppers. -/
example (N : ℕ) (q q' : Heap K V W) (h : q.nat mFirst < N ∧ q.nat mStepsInit = 0) (h' : q'.nat mFirst < N ∧ q'.nat mStepsInit = 0) : AdamsMirrored N q q' :=
  ⟨[], ⟨h.1, by simp [h.2], by simp⟩, ⟨h'.1, by simp [h'.2], by simp⟩⟩

example (sys : Sys ℝ (Fin 3 → ℝ) ℕ) : BasicReverses 0 (AdamsMirrored 4)
    (stepperObject (K := ℝ) fun x t dt => abmStep 4 (abCoef 4) (amCoef 4) (.explicit .rk4) sys false x t x dt)
    (stepperObject (K := ℝ) fun x t dt => abmStep 4 (abCoef 4) (amCoef 4) (.explicit .rk4) (reversedSys sys) false x t x dt) :=
  adams_bashforth_moulton_reverses 4 _ _ (by simp [amCoef]) (.explicit .rk4) trivial rfl sys le_rfl

end Verif
