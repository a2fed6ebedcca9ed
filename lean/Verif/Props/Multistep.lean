import Verif.Lemmas.Multistep
import Verif.Props.DenseRk

/-!
# C35, C36: the memory of the Adams steppers
-/

set_option linter.unusedSectionVars false

namespace Verif
variable {K V W : Type}

/-! ## C35: `rotating_buffer` -/

/-- The writes are inside of the buffer. -/
def BufOp.InRange (N : ℕ) : BufOp V → Prop
  | .write i _ => i < N
  | .rotate => True

/-- **C35**: after any sequence of operations, slot `i` holds what was last written to it, where every rotation moves the
content of a slot to the next one. -/
theorem rotating_buffer_window (N : ℕ) : ∀ (ops : List (BufOp V)), (∀ op ∈ ops, op.InRange N) →
    ∀ h : Heap K V W, h.nat mFirst < N →
    ∃ h', bufRun N ops h = .ok () h' ∧ h'.nat mFirst < N ∧ h'.world = h.world ∧
      (∀ l, ¬ l.ownedBy [.multi] → h.SameAt h' l) ∧
      ∀ i v, i < N → lastWritten ops i = some v →
        ∃ s, bufAt N i h' = .ok s h' ∧ h'.state s = v
  | [], _, h, hf => ⟨h, rfl, hf, rfl, fun _ _ => Heap.SameAt.refl _ _, by simp [lastWritten]⟩
  | op :: ops, hr, h, hf => by
    obtain ⟨h₁, e1, f1, w1, fr1, s1⟩ := rotating_buffer_window N ops (fun o ho => hr o (by simp [ho])) h hf
    unfold bufRun
    rw [M.bind_ok e1]
    cases op with
    | write j v =>
      have hj : j < N := hr (.write j v) (by simp)
      refine ⟨h₁.set (bufData (bufIndex N (h₁.nat mFirst) j)) v, ?_, f1, w1, fun l hl => ?_, ?_⟩
      · show (bufAt N j >>= fun s => _) h₁ = _
        rw [M.bind_ok (bufAt_ok h₁ f1 j)]
      · exact (fr1 l hl).trans (Heap.SameAt.set_ne _ _ (not_multi_ne hl _))
      · intro i u hi hu
        refine ⟨_, bufAt_ok _ (by exact f1) i, ?_⟩
        rw [Heap.set_nat']
        unfold lastWritten at hu
        by_cases hij : i = j
        · rw [if_pos hij] at hu
          cases hu; subst hij; simp
        · rw [if_neg hij] at hu
          obtain ⟨s, t1, t2⟩ := s1 i u hi hu
          rw [bufAt_ok h₁ f1 i] at t1
          injection t1 with t1
          rw [Heap.set_state_ne _ _ (by
            rw [Ne, bufData_inj]; exact fun he => hij (bufIndex_inj hi hj he)), t1]
          exact t2
    | rotate =>
      obtain ⟨f, r1, r2, r3⟩ := bufRotate_ok h₁ f1
      refine ⟨h₁.putNat mFirst f, r1, by simpa [Heap.putNat_nat] using r2, w1, fun l hl => ?_, ?_⟩
      · exact (fr1 l hl).trans (Heap.SameAt.putNat f (not_multi_ne hl 0))
      · intro i u hi hu
        have hfst : (h₁.putNat mFirst f).nat mFirst = f := by simp [Heap.putNat_nat]
        refine ⟨_, bufAt_ok _ (by rw [hfst]; exact r2) i, ?_⟩
        rw [hfst]
        cases i with
        | zero => simp [lastWritten] at hu
        | succ i =>
          obtain ⟨s, t1, t2⟩ := s1 i u (by omega) (by simpa [lastWritten] using hu)
          rw [bufAt_ok h₁ f1 i] at t1
          injection t1 with t1
          rw [r3, Heap.putNat_state, t1]
          exact t2

/-- a buffer of size 3 with two writes to the front and rotations -/
example : lastWritten ([.rotate, .write 0 7, .rotate, .write 0 5] : List (BufOp ℕ)) 2 = some 5 ∧
    (∀ op ∈ ([.rotate, .write 0 7, .rotate, .write 0 5] : List (BufOp ℕ)), op.InRange 3) := by
  constructor
  · rfl
  · intro op hop
    simp only [List.mem_cons, List.not_mem_nil, or_false] at hop
    rcases hop with rfl | rfl | rfl | rfl <;> simp [BufOp.InRange]

/-- **C35**: `N-1` rotations lose nothing, and the `N`-th brings back the oldest slot to the front: the buffer is a window
of the last `N` values written to the front. -/
theorem rotating_buffer_front (N : ℕ) (vs : List V) (i : ℕ) (v : V) (hv : vs[i]? = some v) :
    lastWritten (vs.flatMap fun v => [.write 0 v, .rotate]) i = some v := by
  induction vs generalizing i with
  | nil => simp at hv
  | cons u vs ih =>
    simp only [List.flatMap_cons, List.cons_append, List.nil_append, lastWritten]
    cases i with
    | zero => simpa using hv
    | succ i => simpa using ih i (by simpa using hv)

/-! ## C36 -/

theorem Allowed.caught {H A α : Type} {R : H → A → Prop} {m : M H α} {s : M A α} {h : H} {a : A}
    (hr : Allowed R (m h) (s a)) : Allowed R (caught m h) (caught s a) := by
  unfold Verif.caught
  rcases hr with hu | hr
  · rw [hu]; exact .inl rfl
  · cases h1 : m h <;> cases h2 : s a <;> rw [h1, h2] at hr <;> first | exact hr.elim | skip
    · obtain ⟨e, hR⟩ := hr; subst e; exact .inr ⟨rfl, hR⟩
    · obtain ⟨e, hR⟩ := hr; subst e; exact .inr ⟨rfl, hR⟩
    · exact .inl rfl
    · exact .inr trivial

section
variable [Add K] [Sub K] [Mul K] [Div K] [IntCast K] [Neg K] [StateOps K V]

theorem user_not_owned (n : ℕ) (os : List Owner) : ¬ (Loc.user n).ownedBy os := by simp [Loc.ownedBy]

/-- the outcome of a step, for the abstract machine -/
theorem AdamsOutcome.allowed {os : List Owner} {N : ℕ} {h : Heap K V W} {a : Adams V W} (hR : a.InHeap N h) {out : ℕ}
    {p : StepM K V W Unit} {s : Res W (V × List V)} (H : AdamsOutcome os N h (.user out) (p h) s) :
    Allowed (Adams.InHeap N) ((do p; pure none : StepM K V W (Option K)) h)
      (a.after out s) := by
  obtain ⟨rw', rf, rp, ru⟩ := hR
  unfold AdamsOutcome at H
  cases s with
  | ok y w =>
    obtain ⟨h', b1, b2, b3, b4, b5⟩ := H
    rw [M.bind_ok b1]
    refine .inr ⟨rfl, b2, b4.1, ?_, fun n v hv => ?_⟩
    · rintro past ⟨⟩; exact b4
    · simp only [Function.update_apply] at hv
      by_cases hn : n = out
      · subst hn; rw [if_pos rfl] at hv; cases hv; exact b3
      · rw [if_neg hn] at hv
        rw [(b5 (.user n) (user_not_owned _ _) (by simpa using hn)).1]
        exact ru n v hv
  | err e w =>
    obtain ⟨h', b1, b2, b3, b4⟩ := H
    rw [M.bind_err b1]
    refine .inr ⟨rfl, b2, b3, by rintro past ⟨⟩, fun n v hv => ?_⟩
    simp only [Function.update_apply] at hv
    by_cases hn : n = out
    · rw [if_pos hn] at hv; cases hv
    · rw [if_neg hn] at hv
      rw [(b4 (.user n) (user_not_owned _ _) (by simpa using hn)).1]
      exact ru n v hv
  | ub => exact .inl rfl
  | div => rw [M.bind_div H]; exact .inr trivial

theorem adams_reset_allowed (N : ℕ) (h : Heap K V W) (a : Adams V W) (hR : a.InHeap N h) :
    Allowed (Adams.InHeap N) ((do abReset; pure none : StepM K V W (Option K)) h)
      (.ok none ⟨some [], a.user, a.world⟩) := by
  obtain ⟨rw', rf, rp, ru⟩ := hR
  refine .inr ⟨rfl, rw', ?_, ?_, ru⟩
  · exact (memory_reset rf).1
  · rintro past ⟨⟩; exact memory_reset rf

theorem adams_init_allowed (N : ℕ) (s : InitStepper K) (hs : s.WellFormed) (sys : Sys K V W) (x : ℕ) (t dt : K)
    (h : Heap K V W) (a : Adams V W) (hR : a.InHeap N h) (v : V) (hv : a.user x = some v) :
    Allowed (Adams.InHeap N)
      ((do let t' ← abInitialize N s sys (.user x) t dt; pure (some t') : StepM K V W (Option K)) h)
      (match abInitValue s sys dt (N - 1) [] v t a.world with
        | .ok r w => .ok (some r.2.2) ⟨some r.2.1, Function.update a.user x (some r.1), w⟩
        | .err e w => .err e ⟨none, Function.update a.user x none, w⟩
        | .ub => .ub
        | .div => .div) := by
  obtain ⟨rw', rf, rp, ru⟩ := hR
  have H := abInitialize_value N s hs sys (.user x) (user_not_owned _ _) t dt h rf
  rw [ru x v hv, rw'] at H
  cases e : abInitValue s sys dt (N - 1) [] v t a.world with
  | ok r w =>
    rw [e] at H
    obtain ⟨h', b1, b2, b3, b4, b5⟩ := H
    rw [M.bind_ok b1]
    refine .inr ⟨rfl, b2, b4.1, ?_, fun n v hv => ?_⟩
    · rintro past ⟨⟩; exact b4
    · simp only [Function.update_apply] at hv
      by_cases hn : n = x
      · subst hn; rw [if_pos rfl] at hv; cases hv; exact b3
      · rw [if_neg hn] at hv
        rw [(b5 (.user n) (user_not_owned _ _) (by simpa using hn)).1]
        exact ru n v hv
  | err er w =>
    rw [e] at H
    obtain ⟨h', b1, b2, b3, b4⟩ := H
    rw [M.bind_err b1]
    refine .inr ⟨rfl, b2, b3, by rintro past ⟨⟩, fun n v hv => ?_⟩
    simp only [Function.update_apply] at hv
    by_cases hn : n = x
    · rw [if_pos hn] at hv; cases hv
    · rw [if_neg hn] at hv
      rw [(b4 (.user n) (user_not_owned _ _) (by simpa using hn)).1]
      exact ru n v hv
  | ub => exact .inl rfl
  | div => rw [e] at H; rw [M.bind_div H]; exact .inr trivial

/-- One call of `adams_bashforth`. -/
theorem ab_call_allowed (N : ℕ) (coef : List K) (init : InitStepper K) (hw : init.WellFormed) (sys : Sys K V W)
    (c : AdamsCall K) (hc : c.WellFormed) (h : Heap K V W) (a : Adams V W) (hR : a.InHeap N h) :
    Allowed (Adams.InHeap N) (abCall N coef init sys c h) (Adams.call N (abValue N coef init sys) init sys true c a) := by
  cases c with
  | reset => exact adams_reset_allowed N h a hR
  | init s x t dt =>
    unfold abCall Adams.call
    dsimp only
    cases hv : a.user x with
    | none => exact .inl rfl
    | some v => exact adams_init_allowed N s hc sys x t dt h a hR v hv
  | step resized x t out dt =>
    unfold abCall Adams.call
    dsimp only
    cases hp : a.past with
    | none => exact .inl rfl
    | some past =>
      cases hv : a.user x with
      | none => exact .inl rfl
      | some v =>
        dsimp only
        by_cases hub : (resized = true ∧ true = false ∧ ¬ past.length + 1 < N) ∨
            ((resized = true ∨ past.length + 1 < N) ∧ x = out ∧ init.inPlace = false)
        · rw [if_pos hub]; exact .inl rfl
        · rw [if_neg hub]
          rw [not_or] at hub
          have H := abStep_value' N coef init hw sys resized (.user x) (.user out) t dt h past (hR.2.2.1 past hp)
            (user_not_owned _ _) (user_not_owned _ _) (fun hcond => by
              cases hi : init.inPlace with
              | true => exact .inl rfl
              | false =>
                refine .inr fun he => ?_
                injection he with he
                exact hub.2 ⟨hcond, he, hi⟩)
          rw [hR.2.2.2 x v hv, hR.1] at H
          exact H.allowed hR

/-- One call of `adams_bashforth_moulton`. -/
theorem abm_call_allowed (N : ℕ) (cb cm : List K) (hcm : cm.length ≤ N) (init : InitStepper K) (hw : init.WellFormed)
    (sys : Sys K V W) (c : AdamsCall K) (hc : c.WellFormed) (h : Heap K V W) (a : Adams V W) (hR : a.InHeap N h) :
    Allowed (Adams.InHeap N) (abmCall N cb cm init sys c h)
      (Adams.call N (abmValue N cb cm init sys) init sys false c a) := by
  cases c with
  | reset => exact adams_reset_allowed N h a hR
  | init s x t dt =>
    unfold abmCall Adams.call
    dsimp only
    cases hv : a.user x with
    | none => exact .inl rfl
    | some v => exact adams_init_allowed N s hc sys x t dt h a hR v hv
  | step resized x t out dt =>
    unfold abmCall Adams.call
    dsimp only
    cases hp : a.past with
    | none => exact .inl rfl
    | some past =>
      cases hv : a.user x with
      | none => exact .inl rfl
      | some v =>
        dsimp only
        by_cases hub : (resized = true ∧ false = false ∧ ¬ past.length + 1 < N) ∨
            ((resized = true ∨ past.length + 1 < N) ∧ x = out ∧ init.inPlace = false)
        · rw [if_pos hub]; exact .inl rfl
        · rw [if_neg hub]
          rw [not_or] at hub
          have H := abmStep_value N cb cm hcm init hw sys resized (.user x) (.user out) t dt h past (hR.2.2.1 past hp)
            (user_not_owned _ _) (user_not_owned _ _) (fun hr => by
              by_contra hlt; exact hub.1 ⟨hr, rfl, hlt⟩) (fun hcond => by
              cases hi : init.inPlace with
              | true => exact .inl rfl
              | false =>
                refine .inr fun he => ?_
                injection he with he
                exact hub.2 ⟨hcond, he, hi⟩)
          rw [hR.2.2.2 x v hv, hR.1] at H
          exact H.allowed hR

/-- **C36**: `adams_bashforth`.  Whatever sequence of `do_step` (in place or not, with changes of the state size),
`initialize` and `reset` a caller makes, and whether or not the caller catches exceptions of the system function and
continues: results, user objects and calls of the system function are those of the method on values, which remembers the
derivatives at the previous states, newest first. -/
theorem adams_bashforth_history (N : ℕ) (coef : List K) (init : InitStepper K) (hw : init.WellFormed)
    (sys : Sys K V W) (cs : List {c : AdamsCall K // c.WellFormed}) (h : Heap K V W) (a : Adams V W)
    (hR : a.InHeap N h) :
    Allowed (Adams.InHeap N) (runSeq (fun c => caught (abCall N coef init sys c.1)) cs h)
      (runSeq (fun c => caught (Adams.call N (abValue N coef init sys) init sys true c.1)) cs a) :=
  runSeq_allowed (fun c h a hR => (ab_call_allowed N coef init hw sys c.1 c.2 h a hR).caught) cs h a hR

/-- **C36** for `adams_bashforth_moulton`.  Partial: the step after a change of the state size while the method is
running is unspecified (see `abm_resize_stale`). -/
theorem adams_bashforth_moulton_history_partial (N : ℕ) (cb cm : List K) (hcm : cm.length ≤ N) (init : InitStepper K)
    (hw : init.WellFormed) (sys : Sys K V W) (cs : List {c : AdamsCall K // c.WellFormed}) (h : Heap K V W)
    (a : Adams V W) (hR : a.InHeap N h) :
    Allowed (Adams.InHeap N) (runSeq (fun c => caught (abmCall N cb cm init sys c.1)) cs h)
      (runSeq (fun c => caught (Adams.call N (abmValue N cb cm init sys) init sys false c.1)) cs a) :=
  runSeq_allowed (fun c h a hR => (abm_call_allowed N cb cm hcm init hw sys c.1 c.2 h a hR).caught) cs h a hR

/-- **C28** for `adams_bashforth`, partial: in-place and out-of-place stepping agree (state, memory of the stepper, calls of
the system function, exceptions) if the initialising stepper can be used in place or the warm-up is over.  For the default
initialising stepper during the warm-up see `adams_inplace_warmup_wrong`. -/
theorem adams_inplace_agrees_partial (N : ℕ) (coef : List K) (init : InitStepper K) (hw : init.WellFormed)
    (sys : Sys K V W) (x out : ℕ) (t dt : K) (h : Heap K V W) (past : List V) (hm : AdamsMemory N h past)
    (hip : init.inPlace = true ∨ N ≤ past.length + 1) (hne : x ≠ out) :
    match abStep N coef init sys false (.user x) t (.user x) dt h,
      abStep N coef init sys false (.user x) t (.user out) dt h with
    | .ok _ h₁, .ok _ h₂ => h₁.state (.user x) = h₂.state (.user out) ∧ h₁.world = h₂.world ∧
        ∃ past', AdamsMemory N h₁ past' ∧ AdamsMemory N h₂ past'
    | .err e₁ h₁, .err e₂ h₂ => e₁ = e₂ ∧ h₁.world = h₂.world ∧ h₂.state (.user x) = h.state (.user x)
    | .ub, .ub => True
    | .div, .div => True
    | _, _ => False := by
  have H1 := abStep_value N coef init hw sys (.user x) (.user x) t dt h past hm (user_not_owned _ _) (user_not_owned _ _)
    (fun hlt => hip.elim .inl fun h => by omega)
  have H2 := abStep_value N coef init hw sys (.user x) (.user out) t dt h past hm (user_not_owned _ _)
    (user_not_owned _ _) (fun _ => .inr (by simpa using hne))
  unfold AdamsOutcome at H1 H2
  cases e : abValue N coef init sys past (h.state (.user x)) t dt h.world with
  | ok y w =>
    rw [e] at H1 H2
    obtain ⟨h₁, a1, a2, a3, a4, -⟩ := H1
    obtain ⟨h₂, b1, b2, b3, b4, -⟩ := H2
    rw [a1, b1]
    exact ⟨a3.trans b3.symm, a2.trans b2.symm, _, a4, b4⟩
  | err er w =>
    rw [e] at H1 H2
    obtain ⟨h₁, a1, a2, -, -⟩ := H1
    obtain ⟨h₂, b1, b2, -, b4⟩ := H2
    rw [a1, b1]
    exact ⟨rfl, a2.trans b2.symm, (b4 (.user x) (user_not_owned _ _) (by simpa using hne)).1⟩
  | ub => rw [e] at H1 H2; rw [H1, H2]; trivial
  | div => rw [e] at H1 H2; rw [H1, H2]; trivial

/-- A new stepper, whatever its memory contains, has no history. -/
theorem adams_fresh (N : ℕ) (h : Heap K V W) (hf : h.nat mFirst < N) (hc : h.nat mStepsInit = 0) :
    Adams.InHeap N h ⟨some [], fun n => some (h.state (.user n)), h.world⟩ := by
  refine ⟨rfl, hf, ?_, ?_⟩
  · rintro past ⟨⟩
    exact ⟨hf, by simp [hc], by simp⟩
  · rintro n v ⟨⟩; rfl

end
end Verif
