import Verif.Lemmas.AdamsStep

/-!
# The constants in the coefficient tables survive every call
-/

namespace Verif
set_option linter.unusedSectionVars false
variable {S α β V E W A : Type}

/-- If the program returns or throws, the property of the memory is kept. -/
def Keeps (I : S → Prop) (m : M S α) : Prop := ∀ s, I s → (∀ a s', m s = .ok a s' → I s') ∧ ∀ e s', m s = .err e s' → I s'

theorem Keeps.bind {I : S → Prop} {m : M S α} {k : α → M S β} (hm : Keeps I m) (hk : ∀ a, Keeps I (k a)) : Keeps I (m >>= k) := by
  intro s hs
  obtain ⟨h1, h2⟩ := hm s hs
  rw [M.bind_apply]
  cases h : m s with
  | ok a s' => exact hk a s' (h1 a s' h)
  | err e s' =>
    refine ⟨fun _ _ h' => (nomatch h'), fun e' s'' h' => ?_⟩
    cases h'
    exact h2 e s' h
  | ub => exact ⟨fun _ _ h' => (nomatch h'), fun _ _ h' => (nomatch h')⟩
  | div => exact ⟨fun _ _ h' => (nomatch h'), fun _ _ h' => (nomatch h')⟩

theorem Keeps.pure (I : S → Prop) (a : α) : Keeps I (Pure.pure a : M S α) := by
  intro s hs
  refine ⟨fun a' s' h => ?_, fun e s' h => (nomatch h)⟩
  cases h
  exact hs

theorem Keeps.get (I : S → Prop) : Keeps I (M.get : M S S) := by
  intro s hs
  refine ⟨fun a' s' h => ?_, fun e s' h => (nomatch h)⟩
  cases h
  exact hs

theorem Keeps.modify {I : S → Prop} {f : S → S} (hf : ∀ s, I s → I (f s)) : Keeps I (M.modify f) := by
  intro s hs
  refine ⟨fun a' s' h => ?_, fun e s' h => (nomatch h)⟩
  cases h
  exact hf s hs

theorem Keeps.ub (I : S → Prop) : Keeps I (M.ub : M S α) := fun _ _ => ⟨fun _ _ h => (nomatch h), fun _ _ h => (nomatch h)⟩

theorem Keeps.chk (I : S → Prop) (p : Prop) [Decidable p] : Keeps I (chk p) := by
  unfold Verif.chk
  split
  · exact Keeps.pure I ()
  · exact Keeps.ub I

/-- after a check its condition holds -/
theorem Keeps.chk_bind {I : S → Prop} {p : Prop} [Decidable p] {k : Unit → M S β} (hk : p → Keeps I (k ())) : Keeps I (Verif.chk p >>= k) := by
  by_cases hp : p
  · intro s hs
    rw [M.bind_ok (chk_ok hp s)]
    exact hk hp s hs
  · intro s _
    rw [M.bind_ub (chk_ub hp s)]
    exact ⟨fun _ _ h => (nomatch h), fun _ _ h => (nomatch h)⟩

theorem Keeps.ite {I : S → Prop} {p : Prop} [Decidable p] {m m' : M S α} (h : p → Keeps I m) (h' : ¬ p → Keeps I m') : Keeps I (if p then m else m') := by
  split
  · exact h ‹_›
  · exact h' ‹_›

theorem Keeps.forN {I : S → Prop} {body : ℕ → M S Unit} (n lo : ℕ) (h : ∀ i, lo ≤ i → Keeps I (body i)) : Keeps I (forN body n lo) := by
  induction n generalizing lo with
  | zero => exact Keeps.pure I ()
  | succ n ih => exact Keeps.bind (h lo le_rfl) fun _ => ih (lo + 1) fun i hi => h i (by omega)

theorem Keeps.forUp {I : S → Prop} {body : ℕ → M S Unit} (lo hi : ℕ) (h : ∀ i, lo ≤ i → Keeps I (body i)) : Keeps I (forUp lo hi body) :=
  Keeps.forN _ _ h

theorem Keeps.foldN {I : S → Prop} {body : ℕ → α → M S α} (n lo : ℕ) (a : α) (h : ∀ i a, Keeps I (body i a)) : Keeps I (foldN body n lo a) := by
  induction n generalizing lo a with
  | zero => exact Keeps.pure I a
  | succ n ih => exact Keeps.bind (h lo a) fun a' => ih (lo + 1) a'

theorem Keeps.orElse {I : S → Prop} {m : M S α} (a : α) (h : Keeps I m) : Keeps I (orElse m a) := by
  intro s hs
  obtain ⟨h1, h2⟩ := h s hs
  unfold Verif.orElse
  cases e : m s with
  | ok b s' =>
    refine ⟨fun b' s'' h => ?_, fun _ _ h => (nomatch h)⟩
    cases h
    exact h1 _ _ e
  | err x s' =>
    refine ⟨fun b' s'' h => ?_, fun _ _ h => (nomatch h)⟩
    cases h
    exact h2 _ _ e
  | ub => exact ⟨fun _ _ h' => (nomatch h'), fun _ _ h' => (nomatch h')⟩
  | div => exact ⟨fun _ _ h' => (nomatch h'), fun _ _ h' => (nomatch h')⟩

theorem Keeps.runAll {I : S → Prop} {C : Type} {run : ℕ → C → M S ℕ} {aft : ℕ → C → ℕ} (h : ∀ n c, Keeps I (run n c)) (calls : List C) (n : ℕ) :
    Keeps I (runAll run aft n calls) := by
  induction calls generalizing n with
  | nil => exact Keeps.pure I n
  | cons c cs ih => exact Keeps.bind ((h n c).orElse _) fun m => ih m

theorem Keeps.whileM {I : S → Prop} {cond : α → Bool} {body : α → M S α} (a : α) (h : ∀ a, Keeps I (body a)) : Keeps I (whileM cond body a) := by
  have key : ∀ (n : ℕ) (a : α) (s : S) (r : Res S α), I s → whileF cond body n a s = some r →
      (∀ b s', r = .ok b s' → I s') ∧ ∀ e s', r = .err e s' → I s' := by
    intro n
    induction n with
    | zero => intro a s r _ h; simp [whileF] at h
    | succ n ih =>
      intro a s r hs hr
      simp only [whileF] at hr
      split at hr
      · obtain ⟨h1, h2⟩ := h a s hs
        cases e : body a s with
        | ok b s' => rw [e] at hr; exact ih b s' r (h1 _ _ e) hr
        | err x s' =>
          rw [e] at hr
          cases hr
          refine ⟨fun _ _ h => (nomatch h), fun _ _ h => ?_⟩
          cases h
          exact h2 _ _ e
        | ub => rw [e] at hr; cases hr; exact ⟨fun _ _ h' => (nomatch h'), fun _ _ h' => (nomatch h')⟩
        | div => rw [e] at hr; cases hr; exact ⟨fun _ _ h' => (nomatch h'), fun _ _ h' => (nomatch h')⟩
      · cases hr
        refine ⟨fun _ _ h => ?_, fun _ _ h => (nomatch h)⟩
        cases h
        exact hs
  intro s hs
  unfold Verif.whileM
  split
  · rename_i hx
    exact key _ _ _ _ hs hx.choose_spec.choose_spec
  · exact ⟨fun _ _ h' => (nomatch h'), fun _ _ h' => (nomatch h')⟩

/-! ## The programs -/

theorem Keeps.onCoef {K V : Type} {I : AdamsCoef K V → Prop} {m : M (AdamsCoef K V) α} (h : Keeps I m) :
    Keeps (fun s : AdState K V E W => I s.coef) (onCoef m) := by
  intro s hs
  obtain ⟨h1, h2⟩ := h s.coef hs
  unfold Verif.onCoef
  cases e : m s.coef with
  | ok b s' =>
    refine ⟨fun b' s'' h => ?_, fun _ _ h => (nomatch h)⟩
    cases h
    exact h1 _ _ e
  | err x s' =>
    refine ⟨fun _ _ h => (nomatch h), fun b' s'' h => ?_⟩
    cases h
    exact h2 _ _ e
  | ub => exact ⟨fun _ _ h' => (nomatch h'), fun _ _ h' => (nomatch h')⟩
  | div => exact ⟨fun _ _ h' => (nomatch h'), fun _ _ h' => (nomatch h')⟩

theorem Keeps.outside {K V : Type} (I : AdamsCoef K V → Prop) (m : M W α) : Keeps (fun s : AdState K V E W => I s.coef) (outside m) := by
  intro s hs
  unfold Verif.outside
  cases e : m s.world with
  | ok b s' =>
    refine ⟨fun b' s'' h => ?_, fun _ _ h => (nomatch h)⟩
    cases h
    exact hs
  | err x s' =>
    refine ⟨fun _ _ h => (nomatch h), fun b' s'' h => ?_⟩
    cases h
    exact hs
  | ub => exact ⟨fun _ _ h' => (nomatch h'), fun _ _ h' => (nomatch h')⟩
  | div => exact ⟨fun _ _ h' => (nomatch h'), fun _ _ h' => (nomatch h')⟩

theorem Keeps.adamsCall {K V : Type} (I : AdamsCoef K V → Prop) (sys : Sys K V W) (x : V) (t : K) :
    Keeps (fun s : AdState K V E W => I s.coef) (adamsCall sys x t) := by
  intro s hs
  unfold Verif.adamsCall
  cases e : sys x t s.world with
  | ok b s' =>
    refine ⟨fun b' s'' h => ?_, fun _ _ h => (nomatch h)⟩
    cases h
    exact hs
  | err x s' =>
    refine ⟨fun _ _ h => (nomatch h), fun b' s'' h => ?_⟩
    cases h
    exact hs
  | ub => exact ⟨fun _ _ h' => (nomatch h'), fun _ _ h' => (nomatch h')⟩
  | div => exact ⟨fun _ _ h' => (nomatch h'), fun _ _ h' => (nomatch h')⟩

theorem Keeps.ctrlCall {K V : Type} (I : AdamsCoef K V → Prop) (sys : Sys K V W) (x : V) (t : K) :
    Keeps (fun s : AdState K V (CtrlMem V A) W => I s.coef) (ctrlCall sys x t) := by
  intro s hs
  unfold Verif.ctrlCall
  cases e : sys x t s.world with
  | ok b s' =>
    refine ⟨fun b' s'' h => ?_, fun _ _ h => (nomatch h)⟩
    cases h
    exact hs
  | err x s' =>
    refine ⟨fun _ _ h => (nomatch h), fun b' s'' h => ?_⟩
    cases h
    exact hs
  | ub => exact ⟨fun _ _ h' => (nomatch h'), fun _ _ h' => (nomatch h')⟩
  | div => exact ⟨fun _ _ h' => (nomatch h'), fun _ _ h' => (nomatch h')⟩

section
variable [AddCommGroup V] [Module ℝ V]

theorem adamsPredict_keeps (N : ℕ) (O : NumOps ℝ) (t dt : ℝ) : Keeps (AdamsConst (V := V) N) (adamsPredict N O t dt) := by
  unfold adamsPredict
  refine Keeps.bind (Keeps.chk _ _) fun _ => Keeps.bind (Keeps.modify fun C h => ⟨h.beta0, h.beta1, h.c0, h.c1, h.g0, h.g1⟩) fun _ =>
    Keeps.bind (Keeps.modify fun C h => ?_) fun _ => Keeps.bind (Keeps.get _) fun C => Keeps.bind ?_ fun _ => ?_
  · unfold AdamsCoef.countEqual
    split
    · exact ⟨h.beta0, h.beta1, h.c0, h.c1, h.g0, h.g1⟩
    · split
      · exact ⟨h.beta0, h.beta1, h.c0, h.c1, h.g0, h.g1⟩
      · exact h
  · refine Keeps.forUp _ _ fun i hi => ?_
    unfold betaStep
    refine Keeps.bind (Keeps.chk _ _) fun _ => Keeps.modify fun C h => ⟨?_, ?_, h.c0, h.c1, h.g0, h.g1⟩
    · show (if 0 = 0 ∧ 0 = i then _ else C.beta 0 0) = 1
      rw [if_neg (by omega)]; exact h.beta0
    · simp only [AdamsCoef.setBeta, one_ne_zero, false_and, if_false]
      exact h.beta1
  · refine Keeps.forUp _ _ fun i hi => Keeps.bind (Keeps.forUp _ _ fun j _ => ?_) fun _ => ?_
    · unfold cStep
      refine Keeps.bind (Keeps.chk _ _) fun _ => Keeps.modify fun C h => ⟨h.beta0, h.beta1, ?_, ?_, h.g0, h.g1⟩
      · intro q hq
        show (if q = (N + 2) * i + j then _ else C.c q) = _
        have := row_ne (n := N + 2) (i := i) (j := j) (l := 0) (q := q) (by omega) hq
        rw [if_neg (by simpa using this)]
        exact h.c0 q hq
      · intro q hq
        show (if N + 2 + q = (N + 2) * i + j then _ else C.c (N + 2 + q)) = _
        have := row_ne (n := N + 2) (i := i) (j := j) (l := 1) (q := q) (by omega) hq
        rw [if_neg (by simpa using this)]
        exact h.c1 q hq
    · unfold gStep
      refine Keeps.bind (Keeps.chk _ _) fun _ => Keeps.modify fun C h => ⟨h.beta0, h.beta1, h.c0, h.c1, ?_, ?_⟩
      · show (if 0 = i then _ else C.g 0) = 1
        rw [if_neg (by omega)]; exact h.g0
      · show (if 1 = i then _ else C.g 1) = 1 / 2
        rw [if_neg (by omega)]; exact h.g1

theorem adamsUpdate_keeps (N : ℕ) (d : V) (o : ℕ) : Keeps (AdamsConst (V := V) N) (adamsUpdate N d o) := by
  unfold adamsUpdate
  refine Keeps.bind (Keeps.modify fun C h => ⟨h.beta0, h.beta1, h.c0, h.c1, h.g0, h.g1⟩) fun _ => Keeps.bind (Keeps.get _) fun C =>
    Keeps.forUp _ _ fun i _ => ?_
  unfold phiStep
  exact Keeps.bind (Keeps.chk _ _) fun _ => Keeps.modify fun C h => ⟨h.beta0, h.beta1, h.c0, h.c1, h.g0, h.g1⟩

theorem confirm_keeps (N : ℕ) : Keeps (AdamsConst (V := V) N) (M.modify (AdamsCoef.confirm N)) :=
  Keeps.modify fun C h => ⟨h.beta1, h.beta0, h.c0, h.c1, h.g0, h.g1⟩

theorem raise_keeps (N : ℕ) : Keeps (AdamsConst (V := V) N) (M.modify (AdamsCoef.raise N)) :=
  Keeps.modify fun C h => by
    unfold AdamsCoef.raise
    split
    · exact ⟨h.beta0, h.beta1, h.c0, h.c1, h.g0, h.g1⟩
    · exact h

theorem reset_keeps (N : ℕ) : Keeps (AdamsConst (V := V) N) (M.modify AdamsCoef.reset) :=
  Keeps.modify fun C h => ⟨h.beta0, h.beta1, h.c0, h.c1, h.g0, h.g1⟩

/-- the constants of the memory of the stepper -/
abbrev KeepsConst (N : ℕ) (m : M (AdState ℝ V E W) α) : Prop := Keeps (fun s : AdState ℝ V E W => AdamsConst N s.coef) m

theorem adamsStepImpl_keeps (N : ℕ) (O : NumOps ℝ) (sys : Sys ℝ V W) (x : V) (t dt : ℝ) :
    KeepsConst (E := E) N (adamsStepImpl N O sys x t dt) := by
  unfold adamsStepImpl
  refine Keeps.bind (Keeps.get _) fun s => Keeps.bind (adamsPredict_keeps N O t dt).onCoef fun _ => Keeps.bind (Keeps.get _) fun s =>
    Keeps.bind ?_ fun _ => Keeps.bind ?_ fun out => Keeps.bind (Keeps.adamsCall _ _ _ _) fun _ => Keeps.bind (Keeps.get _) fun s =>
    Keeps.bind (adamsUpdate_keeps N _ _).onCoef fun _ => Keeps.bind (Keeps.chk _ _) fun _ => Keeps.bind (Keeps.get _) fun s => Keeps.pure _ _
  · exact Keeps.ite (fun _ => Keeps.bind (Keeps.adamsCall _ _ _ _) fun _ => Keeps.bind (Keeps.get _) fun s => (adamsUpdate_keeps N _ _).onCoef)
      fun _ => Keeps.pure _ _
  · refine Keeps.foldN _ _ _ fun i a => ?_
    unfold predictorStep
    exact Keeps.bind (Keeps.chk _ _) fun _ => Keeps.bind (Keeps.get _) fun s => Keeps.pure _ _

theorem aabmDoStep_keeps (N : ℕ) (O : NumOps ℝ) (sys : Sys ℝ V W) (x : V) (t dt : ℝ) : KeepsConst (E := E) N (aabmDoStep N O sys x t dt) := by
  unfold aabmDoStep
  exact Keeps.bind (adamsStepImpl_keeps N O sys x t dt) fun r => Keeps.bind (Keeps.adamsCall _ _ _ _) fun _ => Keeps.bind (Keeps.get _) fun s =>
    Keeps.bind (adamsUpdate_keeps N _ _).onCoef fun _ => Keeps.bind (confirm_keeps N).onCoef fun _ => Keeps.bind (raise_keeps N).onCoef fun _ =>
    Keeps.pure _ _

theorem aabmInitializeWith_keeps (N : ℕ) (O : NumOps ℝ) (start : V → V → ℝ → ℝ → M W V) (sys : Sys ℝ V W) (x : V) (t dt : ℝ) :
    KeepsConst (E := E) N (aabmInitializeWith N O start sys x t dt) := by
  unfold aabmInitializeWith
  refine Keeps.bind (reset_keeps N).onCoef fun _ => Keeps.bind (Keeps.adamsCall _ _ _ _) fun _ => Keeps.foldN _ _ _ fun i p => ?_
  unfold aabmInitStep
  exact Keeps.bind (Keeps.get _) fun s => Keeps.bind (Keeps.outside _ _) fun x => Keeps.bind (Keeps.adamsCall _ _ _ _) fun _ =>
    Keeps.bind (adamsPredict_keeps N O _ _).onCoef fun _ => Keeps.bind (Keeps.get _) fun s => Keeps.bind (adamsUpdate_keeps N _ _).onCoef fun _ =>
    Keeps.bind (confirm_keeps N).onCoef fun _ => Keeps.bind (raise_keeps N).onCoef fun _ => Keeps.pure _ _

theorem aabmInitialize_keeps (N : ℕ) (O : NumOps ℝ) (sys : Sys ℝ V W) (x : V) (t dt : ℝ) :
    KeepsConst (E := E) N (aabmInitialize N O sys x t dt) := by
  unfold aabmInitialize
  refine Keeps.bind (reset_keeps N).onCoef fun _ => Keeps.foldN _ _ _ fun i p => ?_
  unfold aabmInitSelf
  exact Keeps.bind (aabmDoStep_keeps N O sys _ _ _) fun r => Keeps.pure _ _

theorem AabmCall.run_keeps (N : ℕ) (O : NumOps ℝ) (n : ℕ) (c : AabmCall ℝ V W) : KeepsConst (E := E) N (c.run N O n) := by
  cases c with
  | doStep sys x t dt => exact Keeps.bind (aabmDoStep_keeps N O sys x t dt) fun _ => Keeps.pure _ _
  | initialize_ sys x t dt => exact Keeps.bind (aabmInitialize_keeps N O sys x t dt) fun _ => Keeps.pure _ _
  | initializeWith start sys x t dt => exact Keeps.bind (aabmInitializeWith_keeps N O start sys x t dt) fun _ => Keeps.pure _ _
  | reset => exact Keeps.bind (reset_keeps N).onCoef fun _ => Keeps.pure _ _

/-! ## The controller -/

theorem setErr_keeps (N : ℕ) (i : ℕ) (v : V) : KeepsConst (E := CtrlMem V A) (W := W) N (setErr i v) := by
  unfold setErr
  exact Keeps.bind (Keeps.chk _ _) fun _ => Keeps.modify fun s h => h

theorem estimate_keeps (N : ℕ) (dt : ℝ) (i k : ℕ) : KeepsConst (V := V) (E := CtrlMem V A) (W := W) N (estimate N dt i k) := by
  unfold estimate
  exact Keeps.bind (Keeps.chk _ _) fun _ => Keeps.bind (Keeps.get _) fun s => setErr_keeps N _ _

theorem cabmTryStep_keeps (N : ℕ) (O : NumOps ℝ) (norm : V → ℝ) (P : AdamsAdjuster ℝ V A) (sys : Sys ℝ V W) (x : V) (t dt : ℝ) :
    KeepsConst N (cabmTryStep N O norm P sys x t dt) := by
  unfold cabmTryStep
  refine Keeps.bind (adamsStepImpl_keeps N O sys x t dt) fun r => Keeps.bind (setErr_keeps N _ _) fun _ => Keeps.bind ?_ fun dtNew => Keeps.ite ?_ ?_
  · intro s hs
    unfold callAdjuster
    refine ⟨fun a s' h => ?_, fun _ _ h => (nomatch h)⟩
    cases h
    exact hs
  · intro _
    refine Keeps.bind ?_ fun _ => Keeps.pure _ _
    unfold acceptStep
    refine Keeps.bind (Keeps.ctrlCall _ _ _ _) fun _ => Keeps.bind (Keeps.get _) fun s => Keeps.bind (adamsUpdate_keeps N _ _).onCoef fun _ =>
      Keeps.bind (confirm_keeps N).onCoef fun _ => Keeps.bind (Keeps.get _) fun s => Keeps.bind (estimate_keeps N _ _ _) fun _ =>
      Keeps.bind (Keeps.ite (fun _ => estimate_keeps N _ _ _) fun _ => Keeps.pure _ _) fun _ =>
      Keeps.bind (Keeps.ite (fun _ => estimate_keeps N _ _ _) fun _ => Keeps.pure _ _) fun _ =>
      Keeps.bind (Keeps.ite (fun _ => estimate_keeps N _ _ _) fun _ => Keeps.pure _ _) fun _ => Keeps.bind (Keeps.get _) fun s =>
      Keeps.onCoef (I := AdamsConst N) (Keeps.modify fun C h => ⟨h.beta0, h.beta1, h.c0, h.c1, h.g0, h.g1⟩)
  · exact fun _ => Keeps.pure _ _

theorem cabmInitializeControlled_keeps (N : ℕ) (O : NumOps ℝ) (tryOther : V → ℝ → ℝ → M W (CabmOut ℝ V)) (sys : Sys ℝ V W) (x : V) (t dt : ℝ) :
    KeepsConst (E := CtrlMem V A) N (cabmInitializeControlled N O tryOther sys x t dt) := by
  unfold cabmInitializeControlled
  refine Keeps.bind (reset_keeps N).onCoef fun _ => Keeps.foldN _ _ _ fun i p => ?_
  unfold cabmInitStep untilSuccess
  exact Keeps.bind (Keeps.whileM _ fun a => Keeps.outside _ _) fun r => Keeps.bind (Keeps.ctrlCall _ _ _ _) fun _ =>
    Keeps.bind (adamsPredict_keeps N O _ _).onCoef fun _ => Keeps.bind (Keeps.get _) fun s => Keeps.bind (adamsUpdate_keeps N _ _).onCoef fun _ =>
    Keeps.bind (confirm_keeps N).onCoef fun _ => Keeps.bind (raise_keeps N).onCoef fun _ => Keeps.pure _ _

theorem CabmCall.run_keeps (N : ℕ) (O : NumOps ℝ) (norm : V → ℝ) (P : AdamsAdjuster ℝ V A) (n : ℕ) (c : CabmCall ℝ V W) :
    KeepsConst N (c.run N O norm P n) := by
  cases c with
  | tryStep sys x t dt => exact Keeps.bind (cabmTryStep_keeps N O norm P sys x t dt) fun _ => Keeps.pure _ _
  | tryStepInOut sys x t dt =>
    exact Keeps.bind (Keeps.bind (cabmTryStep_keeps N O norm P sys x t dt) fun _ => Keeps.pure _ _) fun _ => Keeps.pure _ _
  | initialize_ sys x t dt => exact Keeps.bind (aabmInitialize_keeps N O sys x t dt) fun _ => Keeps.pure _ _
  | initializeWith start sys x t dt => exact Keeps.bind (aabmInitializeWith_keeps N O start sys x t dt) fun _ => Keeps.pure _ _
  | initializeControlled tryOther sys x t dt => exact Keeps.bind (cabmInitializeControlled_keeps N O tryOther sys x t dt) fun _ => Keeps.pure _ _
  | reset => exact Keeps.bind (reset_keeps N).onCoef fun _ => Keeps.pure _ _

end
end Verif
