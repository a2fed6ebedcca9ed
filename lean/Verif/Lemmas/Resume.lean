import Verif.Spec.Resume
import Verif.Spec.Direction
import Mathlib.Tactic.Linarith
import Mathlib.Tactic.Ring
import Mathlib.Tactic.NormNum
import Mathlib.Tactic.FieldSimp

/-! # Lemmas for C80 -/

namespace Verif
variable {Q W S T α β σ : Type}

/-- A loop can be interrupted by a stronger condition. -/
theorem whileM_two (c₁ c₂ : σ → Bool) (body : σ → M W σ) (h : ∀ s, c₁ s = true → c₂ s = true) (s : σ) :
    whileM c₂ body s = whileM c₁ body s >>= whileM c₂ body := by
  funext w
  rcases whileM_div_or (cond := c₁) (body := body) s w with ⟨n, hn⟩ | ⟨hn, hd⟩
  · revert hn
    generalize hr : whileM c₁ body s w = r
    induction n generalizing s w with
    | zero => intro hn; simp [whileF] at hn
    | succ n ih =>
      intro hn
      rw [M.bind_apply, hr]
      simp only [whileF] at hn
      by_cases hc : c₁ s = true
      · rw [if_pos hc] at hn
        rw [whileM_true hc] at hr
        rw [whileM_true (h s hc)]
        cases hb : body s w with
        | ok s' w' =>
          rw [hb] at hn
          rw [M.bind_ok hb] at hr ⊢
          have := ih s' w' hr hn
          rw [this, M.bind_apply, hr]
        | err e w' => rw [M.bind_err hb] at hr ⊢; subst hr; rfl
        | ub => rw [M.bind_ub hb] at hr ⊢; subst hr; rfl
        | div => rw [M.bind_div hb] at hr ⊢; subst hr; rfl
      · rw [if_neg hc] at hn
        cases hn
        rfl
  · rw [M.bind_div hd]
    refine whileM_div (fun s w => ∀ n, whileF c₁ body n s w = none) ?_ hn
    intro s w hI
    have h1 := hI 1
    by_cases hc : c₁ s = true
    · refine ⟨h s hc, ?_⟩
      cases hb : body s w with
      | ok s' w' =>
        refine ⟨s', w', rfl, fun n => ?_⟩
        have := hI (n + 1)
        simpa [whileF, hc, hb] using this
      | err e w' => simp [whileF, hc, hb] at h1
      | ub => simp [whileF, hc, hb] at h1
      | div => simp [whileF, hc, hb] at h1
    · simp [whileF, hc] at h1

/-- The worlds of the uninterrupted run (left) and of the continuation (right), which begins with the observation of `o`; `l` is what has been noted
down before. -/
def Resumed (l : List (S × T)) (o : S × T) (w w' : W × List (S × T)) : Prop :=
  w.1 = w'.1 ∧ w.2 = l ++ w'.2 ∧ w'.2.head? = some o

/-- The same, where the first observation may still be to come. -/
def Resuming (l : List (S × T)) (o : S × T) (x : S) (t : T) (w w' : W × List (S × T)) : Prop :=
  w.1 = w'.1 ∧ w.2 = l ++ w'.2 ∧ (w'.2 = [] ∧ (x, t) = o ∨ w'.2.head? = some o)

theorem Resuming.start {l : List (S × T)} {x : S} {t : T} {w : W} : Resuming l (x, t) x t (w, l) (w, []) :=
  ⟨rfl, by simp, Or.inl ⟨rfl, rfl⟩⟩

theorem Resumed.resuming {l : List (S × T)} {o : S × T} {x : S} {t : T} {w w' : W × List (S × T)} (h : Resumed l o w w') : Resuming l o x t w w' :=
  ⟨h.1, h.2.1, Or.inr h.2.2⟩

/-- The observation. -/
theorem Resuming.note {l : List (S × T)} {o : S × T} {x : S} {t : T} {w w' : W × List (S × T)} (h : Resuming l o x t w w') :
    Res.Rel (fun _ _ w w' => Resumed l o w w') (Resumed l o) (noteObserver x t w) (noteObserver x t w') := by
  obtain ⟨h1, h2, h3⟩ := h
  refine ⟨h1, by simp [h2], ?_⟩
  rcases h3 with ⟨h4, h5⟩ | h4
  · simp [h4, h5]
  · simp [List.head?_append, h4]

/-- A step. -/
theorem Resumed.step {st : BasicStepper Q W S T} (hm : st.Memoryless) {l : List (S × T)} {o : S × T} {w w' : W × List (S × T)} (h : Resumed l o w w')
    (q q' : Q) (x : S) (t dt : T) :
    Res.Rel (fun r r' w w' => r.2 = r'.2 ∧ Resumed l o w w') (Resumed l o) ((st.lift (List (S × T))).doStep q x t dt w)
      ((st.lift (List (S × T))).doStep q' x t dt w') := by
  obtain ⟨h1, h2, h3⟩ := h
  have e := congrFun (hm q q' x t dt) w.1
  rw [M.map_apply, M.map_apply] at e
  simp only [BasicStepper.lift, M.onFst, ← h1]
  cases ha : st.doStep q x t dt w.1 <;> cases hb : st.doStep q' x t dt w.1 <;> rw [ha, hb] at e <;> simp at e
  · exact ⟨e.1, e.2, h2, h3⟩
  · exact ⟨e.1, e.2, h2, h3⟩
  · trivial
  · trivial

/-- From related runs to equal programs. -/
theorem resume_of_rel {p : M (W × List (S × T)) α} {p' : M (W × List (S × T)) β} {f : β → α} {x : S} {t : T} {w : W} {l : List (S × T)}
    (h : Res.Rel (fun a a' w w' => a = f a' ∧ Resumed l (x, t) w w') (Resumed l (x, t)) (p (w, l)) (p' (w, []))) :
    p (w, l) = (do noteObserver x t; let r ← withoutFirst p'; pure (f r) : M (W × List (S × T)) α) (w, l) := by
  have key : ∀ {v v' : W × List (S × T)}, Resumed l (x, t) v v' → v = (v'.1, (l ++ [(x, t)]) ++ v'.2.tail) := by
    rintro ⟨a, k⟩ ⟨a', k'⟩ ⟨h1, h2, h3⟩
    cases k' with
    | nil => simp at h3
    | cons c k' =>
      simp only [List.head?_cons, Option.some.injEq] at h3
      simp only at h1 h2
      subst h3
      simp [h1, h2]
  have e1 : (noteObserver x t : M (W × List (S × T)) Unit) (w, l) = .ok () (w, l ++ [(x, t)]) := rfl
  rw [M.bind_ok e1, M.bind_apply]
  simp only [withoutFirst]
  cases ha : p (w, l) <;> cases hb : p' (w, []) <;> rw [ha, hb] at h <;> simp only [Res.Rel] at h
  · rw [key h.2, h.1]; rfl
  · rw [key h.2, h.1]

end Verif
