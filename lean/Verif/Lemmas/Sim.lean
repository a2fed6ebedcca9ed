import Verif.Prelude.Res

/-!
# Simulation with escape

A framework for relating a run on the left (e.g. with a step checker) with a run on the right.  The left
run may *escape*, i.e. throw an exception the right run does not throw; the right run is then known to
pass through the world `w0'` in which the escape happened.
-/

namespace Verif

/-- Parameters of a simulation between computations over worlds `W` and `W'`. -/
structure SimCtx (W W' : Type) where
  /-- relation of the worlds when both sides throw -/
  RE : W → W' → Prop
  /-- escape condition: exception and worlds at the moment the left side escapes -/
  X : Err → W → W' → Prop
  /-- how the world on the right evolves -/
  E' : W' → W' → Prop
  refl : ∀ w, E' w w
  trans : ∀ {a b c}, E' a b → E' b c → E' a c

namespace SimCtx
variable {W W' : Type} (C : SimCtx W W') {α α' β β' σ σ' : Type}

/-- every final world of `r'` lies after `w'` -/
def Ext (w' : W') : Res W' α' → Prop
  | .ok _ w => C.E' w' w
  | .err _ w => C.E' w' w
  | .ub => True
  | .div => True

/-- the computation only moves the world forward -/
structure Mono (m' : M W' α') : Prop where
  ext : ∀ w', C.Ext w' (m' w')

/-- Corresponding outcomes. -/
inductive Rel (R : α → α' → W → W' → Prop) : Res W α → Res W' α' → Prop
  | ok {a a' w w'} : R a a' w w' → Rel R (.ok a w) (.ok a' w')
  | err {e w w'} : C.RE w w' → Rel R (.err e w) (.err e w')
  | esc {e w w0' r'} : C.X e w w0' → C.Ext w0' r' → Rel R (.err e w) r'
  | ub : Rel R .ub .ub
  | div : Rel R .div .div

variable {C}

theorem Ext.trans {a b : W'} {r : Res W' α'} (h : C.E' a b) (hr : C.Ext b r) : C.Ext a r := by
  cases r with
  | ok _ _ => exact C.trans h hr
  | err _ _ => exact C.trans h hr
  | ub => trivial
  | div => trivial

theorem Ext.bind {w' : W'} {m' : M W' α'} {f' : α' → M W' β'} {w0' : W'}
    (h : C.Ext w0' (m' w')) (hf : ∀ a, C.Mono (f' a)) : C.Ext w0' ((m' >>= f') w') := by
  rw [M.bind_apply]
  cases hm : m' w' with
  | ok a w => rw [hm] at h; exact ((hf a).ext w).trans h
  | err e w => rw [hm] at h; exact h
  | ub => trivial
  | div => trivial

theorem Mono.pure (a : α') : C.Mono (Pure.pure a : M W' α') := ⟨fun w => C.refl w⟩

theorem Mono.bind {m' : M W' α'} {f' : α' → M W' β'} (h : C.Mono m') (hf : ∀ a, C.Mono (f' a)) :
    C.Mono (m' >>= f') := ⟨fun w' => Ext.bind (h.ext w') hf⟩

theorem Mono.ite {c : Prop} [Decidable c] {m n : M W' α'} (h : C.Mono m) (h' : C.Mono n) :
    C.Mono (if c then m else n) := by split <;> assumption

theorem Mono.throw (e : Err) : C.Mono (M.throw e : M W' α') := ⟨fun w => C.refl w⟩
theorem Mono.ub : C.Mono (M.ub : M W' α') := ⟨fun _ => trivial⟩

theorem Mono.whileF {cond : σ' → Bool} {body : σ' → M W' σ'} (hb : ∀ s, C.Mono (body s)) :
    ∀ n s w r, whileF cond body n s w = some r → C.Ext w r := by
  intro n
  induction n with
  | zero => intro s w r h; simp [Verif.whileF] at h
  | succ n ih =>
    intro s w r h
    simp only [Verif.whileF] at h
    split at h
    · have hbs := (hb s).ext w
      cases hbe : body s w with
      | ok s' w' => rw [hbe] at h hbs; exact (ih _ _ _ h).trans hbs
      | err e w' => rw [hbe] at h hbs; cases h; exact hbs
      | ub => rw [hbe] at h; cases h; trivial
      | div => rw [hbe] at h; cases h; trivial
    · cases h; exact C.refl w

theorem Mono.whileM {cond : σ' → Bool} {body : σ' → M W' σ'} (hb : ∀ s, C.Mono (body s)) (s : σ') :
    C.Mono (whileM cond body s) := by
  refine ⟨fun w => ?_⟩
  rcases whileM_div_or (cond := cond) (body := body) s w with ⟨n, hn⟩ | ⟨_, hd⟩
  · exact Mono.whileF hb n s w _ hn
  · rw [hd]; trivial

theorem Rel.pure {R : α → α' → W → W' → Prop} {a : α} {a' : α'} {w : W} {w' : W'}
    (h : R a a' w w') : C.Rel R ((Pure.pure a : M W α) w) ((Pure.pure a' : M W' α') w') := .ok h

theorem Rel.bind {m : M W α} {m' : M W' α'} {f : α → M W β} {f' : α' → M W' β'}
    {w : W} {w' : W'} {R : α → α' → W → W' → Prop} {S : β → β' → W → W' → Prop}
    (h : C.Rel R (m w) (m' w'))
    (hf : ∀ a a' w w', R a a' w w' → C.Rel S (f a w) (f' a' w'))
    (hmono : ∀ a', C.Mono (f' a')) :
    C.Rel S ((m >>= f) w) ((m' >>= f') w') := by
  generalize hr : m w = r at h
  generalize hr' : m' w' = r' at h
  cases h with
  | ok h => rw [M.bind_ok hr, M.bind_ok hr']; exact hf _ _ _ _ h
  | err h => rw [M.bind_err hr, M.bind_err hr']; exact .err h
  | esc hx he => rw [M.bind_err hr]; exact .esc hx (Ext.bind (hr' ▸ he) hmono)
  | ub => rw [M.bind_ub hr, M.bind_ub hr']; exact .ub
  | div => rw [M.bind_div hr, M.bind_div hr']; exact .div

theorem Rel.mono {R S : α → α' → W → W' → Prop} {r : Res W α} {r' : Res W' α'} (h : C.Rel R r r')
    (hRS : ∀ a a' w w', R a a' w w' → S a a' w w') : C.Rel S r r' := by
  cases h with
  | ok h => exact .ok (hRS _ _ _ _ h)
  | err h => exact .err h
  | esc h h' => exact .esc h h'
  | ub => exact .ub
  | div => exact .div

theorem Rel.whileM {cond : σ → Bool} {body : σ → M W σ} {cond' : σ' → Bool} {body' : σ' → M W' σ'}
    (R : σ → σ' → W → W' → Prop)
    (hc : ∀ s s' w w', R s s' w w' → cond s = cond' s')
    (hb : ∀ s s' w w', R s s' w w' → cond s = true → cond' s' = true →
      C.Rel R (body s w) (body' s' w'))
    (hmono : ∀ s', C.Mono (body' s'))
    {s : σ} {s' : σ'} {w : W} {w' : W'} (h0 : R s s' w w') :
    C.Rel (fun s s' w w' => R s s' w w' ∧ cond s = false ∧ cond' s' = false)
      (whileM cond body s w) (whileM cond' body' s' w') := by
  have key : ∀ n s s' w w', R s s' w w' →
      (∃ e v v0, whileF cond body n s w = some (.err e v) ∧ C.X e v v0 ∧
        C.Ext v0 (Verif.whileM cond' body' s' w')) ∨
      (∃ r r', whileF cond body n s w = some r ∧ whileF cond' body' n s' w' = some r' ∧
        C.Rel (fun s s' w w' => R s s' w w' ∧ cond s = false ∧ cond' s' = false) r r') ∨
      (whileF cond body n s w = none ∧ whileF cond' body' n s' w' = none) := by
    intro n
    induction n with
    | zero => intros; right; right; exact ⟨rfl, rfl⟩
    | succ n ih =>
      intro s s' w w' hR
      have hcc := hc _ _ _ _ hR
      by_cases hcs : cond s = true
      · have hcs' : cond' s' = true := hcc ▸ hcs
        have hrel := hb _ _ _ _ hR hcs hcs'
        simp only [whileF, hcs, hcs', if_true]
        rw [whileM_true hcs']
        generalize hr : body s w = r at hrel
        generalize hr' : body' s' w' = r' at hrel
        cases hrel with
        | ok h =>
          rw [M.bind_ok hr']
          exact ih _ _ _ _ h
        | err h =>
          right; left; exact ⟨_, _, rfl, rfl, .err h⟩
        | esc hx he =>
          left
          exact ⟨_, _, _, rfl, hx, Ext.bind (hr' ▸ he) (fun a => Mono.whileM hmono a)⟩
        | ub => right; left; exact ⟨_, _, rfl, rfl, .ub⟩
        | div => right; left; exact ⟨_, _, rfl, rfl, .div⟩
      · right; left
        have hcs' : cond' s' = false := by rw [← hcc]; simpa using hcs
        have hcs : cond s = false := by simpa using hcs
        simp only [whileF, hcs, hcs']
        exact ⟨_, _, rfl, rfl, .ok ⟨hR, hcs, hcs'⟩⟩
  rcases whileM_div_or (cond := cond) (body := body) s w with ⟨n, hn⟩ | ⟨hn, hd⟩
  · rcases key n s s' w w' h0 with ⟨e, v, v0, h1, h2, h3⟩ | ⟨r, r', h1, h2, h3⟩ | ⟨h1, _⟩
    · rw [whileM_eq_of_whileF h1]; exact .esc h2 h3
    · rw [whileM_eq_of_whileF h1, whileM_eq_of_whileF h2]; exact h3
    · rw [h1] at hn; simp at hn
  · rcases whileM_div_or (cond := cond') (body := body') s' w' with ⟨n, hn'⟩ | ⟨_, hd'⟩
    · rcases key n s s' w w' h0 with ⟨e, v, v0, h1, _⟩ | ⟨r, r', h1, _, _⟩ | ⟨_, h2⟩
      · rw [hn n] at h1; simp at h1
      · rw [hn n] at h1; simp at h1
      · rw [h2] at hn'; simp at hn'
    · rw [hd, hd']; exact .div

end SimCtx
end Verif
