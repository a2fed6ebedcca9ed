import Verif.Props.Conserved
import Verif.Props.Multistep

/-!
# C76 for the Adams methods

Linear conservation laws hold in whole integrations with `adams_bashforth` and `adams_bashforth_moulton`.  The integrate functions step in place, so the
initialising stepper has to be one that can be used in place (C28).
-/

namespace Verif
variable {K V U W : Type} [Field K] [AddCommGroup V] [Module K V] [AddCommGroup U] [Module K U] {l : V →ₗ[K] U} {sys : Sys K V W}

theorem abFormula_linear (coef : List K) (x : V) (dt : K) (ks : List V) (h : ∀ k ∈ ks, l k = 0) : l (abFormula coef x dt ks) = l x :=
  map_lin_cons _ _ fun _ hp => h _ (List.of_mem_zip hp).2

theorem init_recipe_linear [NeZero (2 : K)] (hl : InKernel l sys) (s : InitStepper K) (hs : s.inPlace = true) (x k : V) (hk : l k = 0) (t dt : K) (w : W) :
    (s.recipe sys x k t dt w).Keeps (fun y _ => l y = l x) fun _ => True := by
  cases s with
  | explicit s => exact recipe_linear hl s x k hk t dt w
  | extrapolation kmax => cases hs

theorem abValue_linear [NeZero (2 : K)] (N : ℕ) (coef : List K) (init : InitStepper K) (hi : init.inPlace = true) (hl : InKernel l sys) (past : List V)
    (hp : ∀ k ∈ past, l k = 0) (x : V) (t dt : K) (w : W) :
    (abValue N coef init sys past x t dt w).Keeps (fun r _ => l r.1 = l x ∧ ∀ k ∈ r.2, l k = 0) fun _ => True := by
  unfold abValue
  refine (hl.call _ _ _).bind fun k w hk => ?_
  have hks : ∀ k' ∈ k :: past, l k' = 0 := by
    intro k' h
    rcases List.mem_cons.1 h with rfl | h
    · exact hk
    · exact hp _ h
  have fin : ∀ y (w : W), l y = l x → ((pure (y, (k :: past).take (N - 1)) : M W (V × List V)) w).Keeps (fun r _ => l r.1 = l x ∧ ∀ k ∈ r.2, l k = 0)
      fun _ => True := fun y w hy => ⟨hy, fun k' h => hks _ (List.mem_of_mem_take h)⟩
  by_cases hc : past.length + 1 < N
  · rw [if_pos hc]
    exact (init_recipe_linear hl init hi x k hk t dt w).bind fin
  · rw [if_neg hc]
    exact fin _ _ (abFormula_linear _ _ _ _ hks)

theorem abmValue_linear [NeZero (2 : K)] (N : ℕ) (cb cm : List K) (init : InitStepper K) (hi : init.inPlace = true) (hl : InKernel l sys) (past : List V)
    (hp : ∀ k ∈ past, l k = 0) (x : V) (t dt : K) (w : W) :
    (abmValue N cb cm init sys past x t dt w).Keeps (fun r _ => l r.1 = l x ∧ ∀ k ∈ r.2, l k = 0) fun _ => True := by
  unfold abmValue
  refine (hl.call _ _ _).bind fun k w hk => ?_
  have hks : ∀ k' ∈ k :: past, l k' = 0 := by
    intro k' h
    rcases List.mem_cons.1 h with rfl | h
    · exact hk
    · exact hp _ h
  have fin : ∀ y (w : W), l y = l x → ((pure (y, (k :: past).take (N - 1)) : M W (V × List V)) w).Keeps (fun r _ => l r.1 = l x ∧ ∀ k ∈ r.2, l k = 0)
      fun _ => True := fun y w hy => ⟨hy, fun k' h => hks _ (List.mem_of_mem_take h)⟩
  by_cases hc : past.length + 1 < N
  · rw [if_pos hc]
    exact (init_recipe_linear hl init hi x k hk t dt w).bind fin
  · rw [if_neg hc]
    refine (hl.call _ _ _).bind fun k1 w hk1 => fin _ _ (abFormula_linear _ _ _ _ fun k' h => ?_)
    rcases List.mem_cons.1 h with rfl | h
    · exact hk1
    · exact hks _ h

/-- the remembered derivatives -/
def AdamsGood (l : V →ₗ[K] U) (N : ℕ) (h : Heap K V W) : Prop := ∃ past, AdamsMemory N h past ∧ ∀ k ∈ past, l k = 0

theorem adams_conserved {step : Loc → K → K → StepM K V W Unit} {value : List V → V → K → K → M W (V × List V)} {os : List Owner} (N : ℕ)
    (hstep : ∀ t dt h past, AdamsMemory N h past → AdamsOutcome os N h (.user 0) (step (.user 0) t dt h) (value past (h.state (.user 0)) t dt h.world))
    (hv : ∀ past x t dt w, (∀ k ∈ past, l k = 0) → (value past x t dt w).Keeps (fun r _ => l r.1 = l x ∧ ∀ k ∈ r.2, l k = 0) fun _ => True) (c : U) :
    BasicConserves (stepperObject (K := K) step) (fun h => h.nat mFirst < N ∧ h.nat mStepsInit = 0) fun x => l x = c := by
  refine basic_conserves (J := fun h _ => AdamsGood l N h) (stepperObject_keeps (fun h t dt h' hJ hP he => ?_) ?_) ?_
  · obtain ⟨past, hm, hp⟩ := hJ
    have h1 := hstep t dt h past hm
    have h2 := hv past (h.state (.user 0)) t dt h.world hp
    cases e : value past (h.state (.user 0)) t dt h.world with
    | ok r w =>
      rw [e] at h1 h2
      obtain ⟨h'', e', -, hs, hm', -⟩ := h1
      rw [he] at e'
      cases e'
      exact ⟨⟨r.2, hm', h2.2⟩, by rw [hs, h2.1]; exact hP⟩
    | err _ _ =>
      rw [e] at h1
      obtain ⟨h'', e', -⟩ := h1
      rw [he] at e'
      cases e'
    | ub =>
      rw [e] at h1
      rw [h1] at he
      cases he
    | div =>
      rw [e] at h1
      rw [h1] at he
      cases he
  · rintro q x w y ⟨past, ⟨h1, h2, h3⟩, hp⟩
    refine ⟨past, ⟨h1, h2, fun i v hv => ?_⟩, hp⟩
    rw [← h3 i v hv]
    simp [Heap.withWorld, Heap.set_state_apply, bufData]
  · rintro q x ⟨h1, h2⟩ -
    exact ⟨[], ⟨h1, by simp [h2], by simp⟩, by simp⟩

/-- **C76**, `adams_bashforth`, starting with a new or reset stepper. -/
theorem adams_bashforth_linear_conserved [NeZero (2 : K)] (N : ℕ) (coef : List K) (init : InitStepper K) (hw : init.WellFormed) (hi : init.inPlace = true)
    (hl : InKernel l sys) (c : U) :
    BasicConserves (stepperObject (K := K) fun x t dt => abStep N coef init sys false x t x dt) (fun h => h.nat mFirst < N ∧ h.nat mStepsInit = 0)
      fun x => l x = c :=
  adams_conserved N (fun _ _ h _ hm => abStep_value N coef init hw _ _ _ _ _ h _ hm (user_not_owned _ _) (user_not_owned _ _) fun _ => .inl hi)
    (fun past x t dt w hp => abValue_linear N coef init hi hl past hp x t dt w) c

/-- **C76**, `adams_bashforth_moulton`, starting with a new or reset stepper. -/
theorem adams_bashforth_moulton_linear_conserved [NeZero (2 : K)] (N : ℕ) (cb cm : List K) (hcm : cm.length ≤ N) (init : InitStepper K) (hw : init.WellFormed)
    (hi : init.inPlace = true) (hl : InKernel l sys) (c : U) :
    BasicConserves (stepperObject (K := K) fun x t dt => abmStep N cb cm init sys false x t x dt) (fun h => h.nat mFirst < N ∧ h.nat mStepsInit = 0)
      fun x => l x = c :=
  adams_conserved N (fun _ _ h _ hm => abmStep_value N cb cm hcm init hw _ false _ _ _ _ h _ hm (user_not_owned _ _) (user_not_owned _ _) (by simp)
      fun _ => .inl hi)
    (fun past x t dt w hp => abmValue_linear N cb cm init hi hl past hp x t dt w) c

/-! ## The hypotheses can be met -/

example (k : ℝ → ℝ) (c : ℝ) : BasicConserves (stepperObject (K := ℝ) fun x t dt => abmStep 4 (abCoef 4) (amCoef 4) (.explicit .rk4)
    (countSys fun (x : ℝ × ℝ) t => (-(k t * x.1 * x.2), k t * x.1 * x.2)) false x t x dt) (fun h => h.nat mFirst < 4 ∧ h.nat mStepsInit = 0)
    fun x => totalAmount x = c :=
  adams_bashforth_moulton_linear_conserved 4 _ _ (by simp [amCoef]) (.explicit .rk4) trivial rfl (reaction_inKernel k) c

end Verif
