import Verif.Lemmas.Steppers

/-! The FSAL base class over `runge_kutta_dopri5`. -/

set_option linter.unusedSectionVars false

namespace Verif
variable {K V W : Type}

@[simp] theorem Heap.putFlag_state (h : Heap K V W) (l : Loc) (b : Bool) : (h.putFlag l b).state = h.state := rfl
@[simp] theorem Heap.putFlag_world (h : Heap K V W) (l : Loc) (b : Bool) : (h.putFlag l b).world = h.world := rfl
@[simp] theorem Heap.putFlag_num (h : Heap K V W) (l : Loc) (b : Bool) : (h.putFlag l b).num = h.num := rfl
@[simp] theorem Heap.putFlag_nat (h : Heap K V W) (l : Loc) (b : Bool) : (h.putFlag l b).nat = h.nat := rfl
@[simp] theorem Heap.putFlag_flag_self (h : Heap K V W) (l : Loc) (b : Bool) : (h.putFlag l b).flag l = b := by
  simp [Heap.putFlag]
theorem Heap.putFlag_flag_ne (h : Heap K V W) {l l' : Loc} (b : Bool) (hne : l' ≠ l) :
    (h.putFlag l b).flag l' = h.flag l' := by
  simp [Heap.putFlag, hne]

theorem Implements.setFlag {α : Type} {os : List Owner} {h : Heap K V W} {p : Unit → StepM K V W Unit}
    {spec : M W α} {outs : α → List (Loc × V)} {exc : List Loc} {l : Loc} {b : Bool}
    (hl : l.ownedBy os) (H : Implements os (h.putFlag l b) (p ()) spec outs exc) :
    Implements os h (Verif.setFlag l b >>= p) spec outs exc := by
  have this : Implements os h (Verif.setFlag l b) (pure () : M W Unit) (fun _ => []) exc := by
    refine ⟨h.putFlag l b, rfl, rfl, fun l' hl' => ⟨rfl, rfl, ?_, rfl⟩⟩
    exact h.putFlag_flag_ne b (not_owned_ne hl' hl)
  have e : spec = ((pure () : M W Unit) >>= fun _ => spec) := by simp
  rw [e]
  refine Implements.call this (fun o ho => ho) (fun l hl => Or.inr hl) (fun _ d hd => by simp at hd)
    fun _ h' hw hp _ => ?_
  have : h' = h.putFlag l b := by
    simp only [Verif.setFlag, Res.ok.injEq, true_and] at hp; exact hp.symm
  subst this
  exact H

variable [Add K] [Sub K] [Mul K] [Div K] [IntCast K] [StateOps K V]

/-- The derivative a FSAL step starts from: the cached one, or a fresh evaluation. -/
def fsalDeriv (fresh : Bool) (cached : V) (sys : Sys K V W) (x : V) (t : K) : M W V :=
  if fresh then sys x t else pure cached

theorem fsalPrepare_implements {α : Type} (resized : Bool) (sys : Sys K V W) (x : Loc) (t : K) (h : Heap K V W)
    (os : List Owner) (hos : Owner.base ∈ os) (hx : x ≠ mDxdt)
    (q : Unit → StepM K V W Unit) (spec : V → M W α) (outs : α → List (Loc × V)) (exc : List Loc)
    (H : ∀ k h', h'.state mDxdt = k → (∀ l, l ≠ mDxdt → h'.state l = h.state l) →
      Implements os h' (q ()) (spec k) outs exc) :
    Implements os h (fsalPrepare resized sys x t >>= q)
      (fsalDeriv (resized || h.flag mFirstCall) (h.state mDxdt) sys (h.state x) t >>= spec) outs exc := by
  have hown : mDxdt.ownedBy os := hos
  have e : (fsalPrepare resized sys x t >>= q : StepM K V W Unit) h =
      ((if resized || h.flag mFirstCall then fsalInitialize sys x t else pure ()) >>= q : StepM K V W Unit) h := by
    unfold fsalPrepare getFlag
    simp only [bind_assoc]
    rw [M.bind_apply]
  have : Implements os h
      ((if resized || h.flag mFirstCall then fsalInitialize sys x t else pure ()) >>= q : StepM K V W Unit)
      (fsalDeriv (resized || h.flag mFirstCall) (h.state mDxdt) sys (h.state x) t >>= spec) outs exc := by
    unfold fsalDeriv
    cases resized || h.flag mFirstCall with
    | true =>
      simp only [if_true, fsalInitialize, bind_assoc]
      refine Implements.sys hown rfl fun k w => ?_
      refine Implements.setFlag hos ?_
      exact H k _ (by simp) (fun l hl => by simp [Heap.put_state_apply, hl])
    | false =>
      simp only [Bool.false_eq_true, if_false, pure_bind]
      exact H _ _ rfl (fun _ _ => rfl)
  unfold Implements at this ⊢
  rw [e]
  exact this

/-- `do_step` of `runge_kutta_dopri5`, version 3. -/
theorem dopri5Step3_implements (resized : Bool) (sys : Sys K V W) (inp out : Loc) (t dt : K)
    (h : Heap K V W) (hinp : ¬ inp.ownedBy [.rk, .base]) (hout : ¬ out.ownedBy [.rk, .base]) :
    Implements [.rk, .base] h (fsalStep3 dopri5Impl resized sys inp t out dt)
      (fsalDeriv (resized || h.flag mFirstCall) (h.state mDxdt) sys (h.state inp) t >>= fun k =>
        dopri5Step sys (h.state inp) k t dt >>= fun r => pure r.x)
      (fun v => [(out, v)]) [out] := by
  have hi : inp ≠ mDxdt := ne_priv hinp (by simp) _
  have ho : out ≠ mDxdt := ne_priv hout (by simp) _
  unfold fsalStep3
  refine fsalPrepare_implements resized sys inp t h _ (by simp) hi _ _ _ _ fun k h' h1 h2 => ?_
  have := dopri5_implements sys inp mDxdt out mDxdt t dt h' (not_owned_sub hinp (by simp))
    (by simp [mDxdt, Loc.ownedBy]) (not_owned_sub hout (by simp)) (by simp [mDxdt, Loc.ownedBy]) ho
  rw [h1, h2 inp hi] at this
  refine this.weaken (os' := [.rk, .base]) (fun r => r.x) (by simp) ?_ ?_
  · intro r l hl
    have : l ≠ mDxdt := ne_priv hl (by simp) _
    refine ⟨?_, rfl, rfl, rfl⟩
    simp [Heap.set_state_apply, this]
  · intro l hl
    have : l ≠ mDxdt := ne_priv hl (by simp) _
    simp [this]

end Verif
