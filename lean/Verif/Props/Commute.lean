import Verif.Lemmas.Relational
import Verif.Spec.MultistepRun
import Verif.Spec.Fsal
import Verif.Spec.RealOps
import Verif.Lemmas.RunEval
import Mathlib.Algebra.Module.LinearMap.Defs
import Mathlib.Algebra.Module.Prod
import Mathlib.Algebra.Module.Rat
import Mathlib.Tactic.NormNum

/-!
# C48: steps commute with linear changes of coordinates and do not mix independent subsystems

The calls are sequences of arbitrary calls to all explicit steppers, `runge_kutta_dopri5` (whose cached derivative persists between the
calls), the extrapolation stepper and the Adams steppers (whose history persists), and for the controlled and dense output versions also
the results of `try_step` and `do_step`.
-/

set_option linter.unusedSectionVars false

namespace Verif
variable {K V U W X : Type}

theorem HeapRel.eq_map {L : V → U} {h : Heap K V W} {h' : Heap K U W} (hr : HeapRel (fun x y => L x = y) (· = ·) h h') : h' = h.map L := by
  obtain ⟨h1, h2, h3, h4, h5⟩ := hr
  cases h'
  simp only [Heap.map, Heap.mk.injEq]
  exact ⟨funext fun l => (h1 l).symm, h2, h3, h4, h5.symm⟩

theorem HeapRel.map (L : V → U) (h : Heap K V W) : HeapRel (fun x y => L x = y) (· = ·) h (h.map L) :=
  ⟨fun _ => rfl, rfl, rfl, rfl, rfl⟩

theorem LinHom.closed [StateOps K V] [StateOps K U] {L : V → U} (hL : LinHom K L) : LinClosed K (fun x y => L x = y) := by
  intro l h
  rw [hL, List.map_map]
  congr 1
  exact List.map_congr_left fun p hp => by simp only [Function.comp, h p hp]

theorem Intertwines.rel {L : V → U} {f : Sys K V W} {g : Sys K U W} (h : Intertwines L f g) : SysRel False (fun x y => L x = y) (· = ·) f g := by
  rintro x y t w w' rfl rfl
  have := h x t w
  cases hf : f x t w with
  | ok v w' => rw [hf] at this; exact ⟨_, _, this, rfl, rfl⟩
  | err e w' => rw [hf] at this; exact .inr ⟨_, this, rfl⟩
  | ub => rw [hf] at this; exact .inr this
  | div => rw [hf] at this; exact .inr this

theorem ResRel.eq_mapHeap {α : Type} {L : V → U} {r : Res (Heap K V W) α} {r' : Res (Heap K U W) α}
    (h : ResRel False (· = ·) (HeapRel (fun x y => L x = y) (· = ·)) r r') : r' = r.mapHeap L := by
  cases r with
  | ok a h₁ =>
    obtain ⟨b, h', rfl, rfl, hr⟩ := h
    rw [hr.eq_map]; rfl
  | err e h₁ =>
    obtain h | ⟨h', rfl, hr⟩ := h
    · exact h.elim
    · rw [hr.eq_map]; rfl
  | ub => exact h.elim False.elim id
  | div => exact h.elim False.elim id

section
variable [Add K] [Sub K] [Mul K] [Div K] [IntCast K] [Neg K] [StateOps K V] [StateOps K U]

/-- **C48.**  Let `L` commute with linear combinations and let `g` be `f` in the new coordinates.  Then every sequence of calls, made with
`g` in the image of a memory, ends in the image of what the same calls made with `f` end in: all states, errors and cached derivatives are
the images, the same exceptions are thrown. -/
theorem steps_commute (L : V → U) (hL : LinHom K L) (f : Sys K V W) (g : Sys K U W) (hfg : Intertwines L f g) (cs : List (StepCall K))
    (h : Heap K V W) : runStepCalls g cs (h.map L) = (runStepCalls f cs h).mapHeap L :=
  (runStepCalls_rel hL.closed hfg.rel cs h _ (HeapRel.map L h)).eq_mapHeap

/-- **C48** for `controlled_runge_kutta` and the dense output steppers: if in addition the error checkers agree (`CtrlRel`), the results of
`try_step` and the intervals returned by `do_step` are the same. -/
theorem controlled_steps_commute (L : V → U) (hL : LinHom K L) (f : Sys K V W) (g : Sys K U W) (hfg : Intertwines L f g) (P : CtrlParams K V)
    (Q : CtrlParams K U) (hPQ : CtrlRel (fun x y => L x = y) P Q) (cs : List (TrialCall K)) (h : Heap K V W) :
    runTrialCalls Q g cs (h.map L) = (runTrialCalls P f cs h).mapHeap L :=
  (runTrialCalls_rel hL.closed hfg.rel hPQ cs h _ (HeapRel.map L h)).eq_mapHeap

end

/-- Linear maps are such `L`, in exact arithmetic. -/
theorem linear_linHom [Semiring K] [AddCommMonoid V] [AddCommMonoid U] [Module K V] [Module K U] (L : V →ₗ[K] U) : LinHom K L := by
  intro l
  simp only [lin, map_list_sum, List.map_map]
  congr 1
  exact List.map_congr_left fun p _ => by simp [Function.comp]

/-- Renaming, dropping and duplicating components is such an `L` in any arithmetic, also with rounding: the result in a component depends
on this component only. -/
theorem reindex_linHom {ι κ : Type} [Add K] [Mul K] [IntCast K] (e : κ → ι) :
    @LinHom (ι → K) (κ → K) K StateOps.componentwise StateOps.componentwise (fun x i => x (e i)) := by
  intro l
  cases l with
  | nil => rfl
  | cons p l =>
    funext i
    show l.foldl (fun acc q => acc + q.1 * q.2 (e i)) _ = (l.map fun p => (p.1, fun i => p.2 (e i))).foldl (fun acc q => acc + q.1 * q.2 i) _
    rw [List.foldl_map]

/-- Two systems without coupling, evaluated one after the other. -/
def sideBySide {V₁ V₂ W₁ W₂ : Type} (f₁ : Sys K V₁ W₁) (f₂ : Sys K V₂ W₂) : Sys K (V₁ × V₂) (W₁ × W₂) := fun x t w =>
  match f₁ x.1 t w.1 with
  | .ok v₁ w₁ => match f₂ x.2 t w.2 with
    | .ok v₂ w₂ => .ok (v₁, v₂) (w₁, w₂)
    | .err e w₂ => .err e (w₁, w₂)
    | .ub => .ub
    | .div => .div
  | .err e w₁ => .err e (w₁, w.2)
  | .ub => .ub
  | .div => .div

/-- the first and the second half of a memory -/
def Heap.fst {V₁ V₂ W₁ W₂ : Type} (h : Heap K (V₁ × V₂) (W₁ × W₂)) : Heap K V₁ W₁ := ⟨fun l => (h.state l).1, h.num, h.flag, h.nat, h.world.1⟩
def Heap.snd {V₁ V₂ W₁ W₂ : Type} (h : Heap K (V₁ × V₂) (W₁ × W₂)) : Heap K V₂ W₂ := ⟨fun l => (h.state l).2, h.num, h.flag, h.nat, h.world.2⟩

section
variable {V₁ V₂ W₁ W₂ : Type} [Field K] [AddCommGroup V₁] [AddCommGroup V₂] [Module K V₁] [Module K V₂]

theorem HeapRel.eq_fst {h : Heap K (V₁ × V₂) (W₁ × W₂)} {h' : Heap K V₁ W₁}
    (hr : HeapRel (fun x y => x.1 = y) (fun w w' => w.1 = w') h h') : h' = h.fst := by
  obtain ⟨h1, h2, h3, h4, h5⟩ := hr
  cases h'
  simp only [Heap.fst, Heap.mk.injEq]
  exact ⟨funext fun l => (h1 l).symm, h2, h3, h4, h5.symm⟩

theorem HeapRel.eq_snd {h : Heap K (V₁ × V₂) (W₁ × W₂)} {h' : Heap K V₂ W₂}
    (hr : HeapRel (fun x y => x.2 = y) (fun w w' => w.2 = w') h h') : h' = h.snd := by
  obtain ⟨h1, h2, h3, h4, h5⟩ := hr
  cases h'
  simp only [Heap.snd, Heap.mk.injEq]
  exact ⟨funext fun l => (h1 l).symm, h2, h3, h4, h5.symm⟩

theorem sideBySide_rel_fst (f₁ : Sys K V₁ W₁) (f₂ : Sys K V₂ W₂) :
    SysRel True (fun x y => x.1 = y) (fun w w' => w.1 = w') (sideBySide f₁ f₂) f₁ := by
  rintro x _ t w _ rfl rfl
  unfold sideBySide
  cases h1 : f₁ x.1 t w.1 with
  | ok v₁ w₁ => cases h2 : f₂ x.2 t w.2 with
    | ok v₂ w₂ => exact ⟨_, _, rfl, rfl, rfl⟩
    | err e w₂ => exact .inl trivial
    | ub => exact .inl trivial
    | div => exact .inl trivial
  | err e w₁ => exact .inl trivial
  | ub => exact .inl trivial
  | div => exact .inl trivial

theorem sideBySide_rel_snd (f₁ : Sys K V₁ W₁) (f₂ : Sys K V₂ W₂) :
    SysRel True (fun x y => x.2 = y) (fun w w' => w.2 = w') (sideBySide f₁ f₂) f₂ := by
  rintro x _ t w _ rfl rfl
  unfold sideBySide
  cases h1 : f₁ x.1 t w.1 with
  | ok v₁ w₁ => cases h2 : f₂ x.2 t w.2 with
    | ok v₂ w₂ => exact ⟨_, _, rfl, rfl, rfl⟩
    | err e w₂ => exact .inl trivial
    | ub => exact .inl trivial
    | div => exact .inl trivial
  | err e w₁ => exact .inl trivial
  | ub => exact .inl trivial
  | div => exact .inl trivial

theorem fst_closed : LinClosed K (fun (x : V₁ × V₂) (y : V₁) => x.1 = y) := (linear_linHom (LinearMap.fst K V₁ V₂)).closed
theorem snd_closed : LinClosed K (fun (x : V₁ × V₂) (y : V₂) => x.2 = y) := (linear_linHom (LinearMap.snd K V₁ V₂)).closed

/-- **C48.**  Two uncoupled systems integrated together, by any sequence of calls that returns, give what they give integrated separately. -/
theorem uncoupled_systems (f₁ : Sys K V₁ W₁) (f₂ : Sys K V₂ W₂) (cs : List (StepCall K)) (h h' : Heap K (V₁ × V₂) (W₁ × W₂))
    (hr : runStepCalls (sideBySide f₁ f₂) cs h = .ok () h') :
    runStepCalls f₁ cs h.fst = .ok () h'.fst ∧ runStepCalls f₂ cs h.snd = .ok () h'.snd := by
  have h1 := runStepCalls_rel fst_closed (sideBySide_rel_fst f₁ f₂) cs h h.fst ⟨fun _ => rfl, rfl, rfl, rfl, rfl⟩
  have h2 := runStepCalls_rel snd_closed (sideBySide_rel_snd f₁ f₂) cs h h.snd ⟨fun _ => rfl, rfl, rfl, rfl, rfl⟩
  rw [hr] at h1 h2
  obtain ⟨_, h₁, e1, -, r1⟩ := h1
  obtain ⟨_, h₂, e2, -, r2⟩ := h2
  exact ⟨by rw [e1, r1.eq_fst], by rw [e2, r2.eq_snd]⟩

end

/-! ## Instances -/

/-- Rotating the harmonic oscillator by a quarter turn. -/
example : Intertwines (fun x : ℚ × ℚ => (-x.2, x.1)) (countSys fun (x : ℚ × ℚ) (_ : ℚ) => (x.2, -x.1))
    (countSys fun (x : ℚ × ℚ) (_ : ℚ) => (x.2, -x.1)) := fun x _ _ => by
  simp [countSys]

/-- The mirror image of a scalar problem: the checkers of `controlled_runge_kutta` agree. -/
example (P : CtrlParams ℝ ℝ) (hP : P.checker.error = fun x _ e _ => (e, |e| / (|x| + 1))) : CtrlRel (fun x y : ℝ => -x = y) P P where
  gtOne := rfl
  adjuster := rfl
  stepperOrder := rfl
  errorOrder := rfl
  checker := by
    rintro x _ k _ e _ dt rfl rfl rfl
    rw [hP]
    exact ⟨rfl, by simp⟩

/-- A call of `euler` and one of `adams_bashforth<2>` for two uncoupled systems return. -/
example : ∃ h', runStepCalls (sideBySide (countSys fun (x : ℚ) (_ : ℚ) => x) (countSys fun (_ : ℚ) (t : ℚ) => t))
    [.step1 (.explicit .euler) 0 0 1, .adams 2 (.explicit .euler) false 0 0 0 1] ⟨fun _ => (1, 2), fun _ => 0, fun _ => false, fun _ => 0, (0, 0)⟩ = .ok () h' := by
  exact ⟨_, rfl⟩

end Verif
