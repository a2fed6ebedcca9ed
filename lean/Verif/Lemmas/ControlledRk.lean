import Verif.Lemmas.Fsal
import Verif.Spec.ControlledRk

set_option linter.unusedSectionVars false

namespace Verif
variable {K V W α β : Type} [Add K]

abbrev ctrlOwners : List Owner := [.rk, .base, .ctrl]
abbrev ctrlAllOwners : List Owner := [.rk, .base, .ctrl, .cache]

theorem mXerr_owned : mXerr.ownedBy ctrlOwners := by simp [mXerr, Loc.ownedBy]
theorem mXnew_owned : mXnew.ownedBy ctrlOwners := by simp [mXnew, Loc.ownedBy]
theorem mDxdtNew_owned : mDxdtNew.ownedBy ctrlOwners := by simp [mDxdtNew, Loc.ownedBy]
theorem mCtrlDxdt_owned : mCtrlDxdt.ownedBy ctrlAllOwners := by simp [mCtrlDxdt, Loc.ownedBy]

theorem setAll_cons_owned {os : List Owner} (h : Heap K V W) {d : Loc} (v : V) (hd : d.ownedBy os) (l : Loc)
    (hl : ¬ l.ownedBy os) : h.SameAt (h.set d v) l :=
  Heap.SameAt.set_ne h v (not_owned_ne hl hd)

theorem mXerr_owned' {os : List Owner} : mXerr.ownedBy (os ++ [.base, .ctrl]) := by simp [mXerr, Loc.ownedBy]
theorem mXnew_owned' {os : List Owner} : mXnew.ownedBy (os ++ [.base, .ctrl]) := by simp [mXnew, Loc.ownedBy]

/-- The general form of `tryStep4`, for any stepper that implements its recipe. -/
theorem tryStep4_computes_of {os : List Owner} {exc : List Loc} (hoe' : ¬ mXerr.ownedBy os) (P : CtrlParams K V) (impl : ErrStepImpl K V W) (step : Recipe K V W (V × V))
    (sys : Sys K V W) (inp dxdt out : Loc) (t dt : K) (h : Heap K V W)
    (hi : ¬ inp.ownedBy os) (hd : ¬ dxdt.ownedBy os) (ho : ¬ out.ownedBy os)
    (hio : inp ≠ out) (hdo : dxdt ≠ out) (hie : inp ≠ mXerr) (hde : dxdt ≠ mXerr) (hoe : out ≠ mXerr)
    (H : Implements os h (impl sys inp dxdt t out dt mXerr) (step sys (h.state inp) (h.state dxdt) t dt)
      (fun r => [(out, r.1), (mXerr, r.2)]) exc) :
    Computes (os ++ [.base, .ctrl]) h (tryStep4 P impl sys inp dxdt t out dt)
      (trial P step sys (h.state inp) (h.state dxdt) t dt) (Trial.out t dt) (Trial.outOfPlace out) exc ∧
    (∀ tr w h', trial P step sys (h.state inp) (h.state dxdt) t dt h.world = .ok tr w →
      tryStep4 P impl sys inp dxdt t out dt h = .ok (tr.out t dt) h' →
      h'.state out = (h.setAll (tr.outOfPlace out)).state out) := by
  unfold Computes trial tryStep4 doStep8
  by_cases hc : P.adjuster.checkStepSizeLimit dt = false
  · simp only [hc, Bool.not_false, if_true]
    refine ⟨⟨h, rfl, rfl, fun l _ => Heap.SameAt.refl _ _⟩, ?_⟩
    intro tr w h' h1 h2
    simp only [M.pure_apply, Res.ok.injEq] at h1 h2
    obtain ⟨rfl, -⟩ := h1
    rw [← h2.2]
    rfl
  · simp only [Bool.not_eq_false] at hc
    simp only [hc, Bool.true_eq_false, if_false, Bool.not_true]
    unfold Implements at H
    simp only [M.bind_apply, pure_bind]
    cases hs : step sys (h.state inp) (h.state dxdt) t dt h.world with
    | ok r w =>
      rw [hs] at H
      obtain ⟨h', a1, a2, a3⟩ := H
      have e1 : h'.state inp = h.state inp := by
        rw [(a3 inp hi).1]
        simp [Heap.set_state_apply, hio, hie]
      have e2 : h'.state dxdt = h.state dxdt := by
        rw [(a3 dxdt hd).1]
        simp [Heap.set_state_apply, hdo, hde]
      have e3 : h'.state mXerr = r.2 := by
        rw [(a3 mXerr hoe').1]
        simp
      have e4 : h'.state out = r.1 := by
        rw [(a3 out ho).1]
        simp [Heap.set_state_apply, hoe]
      have frame : ∀ l, ¬ l.ownedBy (os ++ [.base, .ctrl]) → (h.setAll [(out, r.1)]).SameAt h' l := by
        intro l hl
        have : l ≠ mXerr := not_owned_ne hl mXerr_owned'
        refine Heap.SameAt.trans ?_ (a3 l (not_owned_sub hl (by simp +contextual)))
        exact Heap.SameAt.set_ne _ _ this
      simp only [Bool.false_eq_true, if_false, M.bind_apply, a1, callChecker', e1, e2, e3, decide', M.pure_apply]
      split_ifs with hg
      · refine ⟨⟨h'.set mXerr (P.checker.error (h.state inp) (h.state dxdt) r.2 dt).1, rfl, a2, fun l hl => ?_⟩, ?_⟩
        · exact (frame l hl).trans (Heap.SameAt.set_ne _ _ (not_owned_ne hl mXerr_owned'))
        · intro tr w' h'' h1 h2
          simp only [Res.ok.injEq] at h1 h2
          obtain ⟨rfl, -⟩ := h1
          rw [← h2.2]
          simp [Trial.outOfPlace, Heap.set_state_apply, hoe, e4]
      · refine ⟨⟨h'.set mXerr (P.checker.error (h.state inp) (h.state dxdt) r.2 dt).1, rfl, a2, fun l hl => ?_⟩, ?_⟩
        · exact (frame l hl).trans (Heap.SameAt.set_ne _ _ (not_owned_ne hl mXerr_owned'))
        · intro tr w' h'' h1 h2
          simp only [Res.ok.injEq] at h1 h2
          obtain ⟨rfl, -⟩ := h1
          rw [← h2.2]
          simp [Trial.outOfPlace, Heap.set_state_apply, hoe, e4]
    | err e w =>
      rw [hs] at H
      obtain ⟨h', a1, a2, a3⟩ := H
      simp only [Bool.false_eq_true, if_false, M.bind_apply, a1]
      refine ⟨⟨h', rfl, a2, fun l hl hle => a3 l (not_owned_sub hl (by simp +contextual)) hle⟩, ?_⟩
      rintro _ _ _ h1; cases h1
    | ub => rw [hs] at H; simp only at H; simp [M.bind_apply, H]
    | div => rw [hs] at H; simp only at H; simp [M.bind_apply, H]

theorem tryStep2_computes_of {os : List Owner} {exc : List Loc} (hexc : ∀ l ∈ exc, l = mXnew) (hoe' : ¬ mXerr.ownedBy os) (hon : ¬ mXnew.ownedBy os) (P : CtrlParams K V) (impl : ErrStepImpl K V W) (step : Recipe K V W (V × V))
    (sys : Sys K V W) (x dxdt : Loc) (t dt : K) (h : Heap K V W)
    (hi : ¬ x.ownedBy os) (hd : ¬ dxdt.ownedBy os) (hx : ¬ x.ownedBy (os ++ [.base, .ctrl]))
    (hdn : dxdt ≠ mXnew) (hde : dxdt ≠ mXerr)
    (H : Implements os h (impl sys x dxdt t mXnew dt mXerr) (step sys (h.state x) (h.state dxdt) t dt)
      (fun r => [(mXnew, r.1), (mXerr, r.2)]) exc) :
    Computes (os ++ [.base, .ctrl]) h (tryStep2 P impl sys x dxdt t dt)
      (trial P step sys (h.state x) (h.state dxdt) t dt) (Trial.out t dt) (Trial.inPlace x) [] := by
  obtain ⟨h4, hn⟩ := tryStep4_computes_of hoe' P impl step sys x dxdt mXnew t dt h hi hd hon
    (not_owned_ne hx mXnew_owned') hdn (not_owned_ne hx mXerr_owned') hde (by simp [mXnew, mXerr]) H
  unfold Computes at *
  unfold tryStep2
  simp only [M.bind_apply]
  cases hs : trial P step sys (h.state x) (h.state dxdt) t dt h.world with
  | ok tr w =>
    rw [hs] at h4
    obtain ⟨h', a1, a2, a3⟩ := h4
    have hn' := hn tr w h' hs a1
    have fr : ∀ y l, ¬ l.ownedBy (os ++ [.base, .ctrl]) → h.SameAt (h.setAll [(mXnew, y)]) l :=
      fun y l hl => Heap.SameAt.set_ne _ _ (not_owned_ne hl mXnew_owned')
    rw [a1]
    cases tr with
    | limited dt' =>
      exact ⟨h', rfl, a2, a3⟩
    | rejected y e dt' =>
      exact ⟨h', rfl, a2, fun l hl => (fr y l hl).trans (a3 l hl)⟩
    | accepted y e dt' =>
      refine ⟨h'.set x (h'.state mXnew), rfl, a2, fun l hl => ?_⟩
      have : h'.state mXnew = y := by rw [hn']; simp [Trial.outOfPlace]
      rw [this]
      exact ((fr y l hl).trans (a3 l hl)).set x y
  | err e w =>
    rw [hs] at h4
    obtain ⟨h', a1, a2, a3⟩ := h4
    rw [a1]
    exact ⟨h', rfl, a2, fun l hl _ => a3 l hl fun hm => hl (hexc l hm ▸ mXnew_owned')⟩
  | ub => rw [hs] at h4; rw [h4]
  | div => rw [hs] at h4; rw [h4]

theorem tryStep4_computes (P : CtrlParams K V) (impl : ErrStepImpl K V W) (step : Recipe K V W (V × V))
    (sys : Sys K V W) (inp dxdt out : Loc) (t dt : K) (h : Heap K V W)
    (hi : ¬ inp.ownedBy [.rk]) (hd : ¬ dxdt.ownedBy [.rk]) (ho : ¬ out.ownedBy [.rk])
    (hio : inp ≠ out) (hdo : dxdt ≠ out) (hie : inp ≠ mXerr) (hde : dxdt ≠ mXerr) (hoe : out ≠ mXerr)
    (H : Implements [.rk] h (impl sys inp dxdt t out dt mXerr) (step sys (h.state inp) (h.state dxdt) t dt)
      (fun r => [(out, r.1), (mXerr, r.2)]) []) :
    Computes ctrlOwners h (tryStep4 P impl sys inp dxdt t out dt)
      (trial P step sys (h.state inp) (h.state dxdt) t dt) (Trial.out t dt) (Trial.outOfPlace out) [] ∧
    (∀ tr w h', trial P step sys (h.state inp) (h.state dxdt) t dt h.world = .ok tr w →
      tryStep4 P impl sys inp dxdt t out dt h = .ok (tr.out t dt) h' →
      h'.state out = (h.setAll (tr.outOfPlace out)).state out) := 
  tryStep4_computes_of (os := [.rk]) (exc := []) (by simp [mXerr, Loc.ownedBy]) P impl step sys inp dxdt out t dt h hi hd ho hio hdo hie hde hoe H

theorem tryStep2_computes (P : CtrlParams K V) (impl : ErrStepImpl K V W) (step : Recipe K V W (V × V))
    (sys : Sys K V W) (x dxdt : Loc) (t dt : K) (h : Heap K V W)
    (hi : ¬ x.ownedBy [.rk]) (hd : ¬ dxdt.ownedBy [.rk]) (hx : ¬ x.ownedBy ctrlOwners)
    (hdn : dxdt ≠ mXnew) (hde : dxdt ≠ mXerr)
    (H : Implements [.rk] h (impl sys x dxdt t mXnew dt mXerr) (step sys (h.state x) (h.state dxdt) t dt)
      (fun r => [(mXnew, r.1), (mXerr, r.2)]) []) :
    Computes ctrlOwners h (tryStep2 P impl sys x dxdt t dt)
      (trial P step sys (h.state x) (h.state dxdt) t dt) (Trial.out t dt) (Trial.inPlace x) [] := 
  tryStep2_computes_of (os := [.rk]) (exc := []) (by simp) (by simp [mXerr, Loc.ownedBy]) (by simp [mXnew, Loc.ownedBy]) P impl step sys x dxdt t dt h hi hd hx hdn hde H

/-- Calling the system function first. -/
theorem Computes.sys {os : List Owner} {h : Heap K V W} {p : Unit → StepM K V W β}
    {f : Sys K V W} {spec : V → M W α} {ret : α → β} {outs : α → List (Loc × V)} {exc : List Loc} {src dst : Loc}
    {t : K} {x : V} (hd : dst.ownedBy os) (hx : h.state src = x)
    (H : ∀ k w, Computes os (h.put dst k w) (p ()) (spec k) ret outs exc) :
    Computes os h (callSys f src dst t >>= p) (f x t >>= spec) ret outs exc := by
  unfold Computes
  rw [M.bind_apply, M.bind_apply, callSys_apply, hx]
  cases hf : f x t h.world with
  | ok k w =>
    have := H k w
    unfold Computes at this
    simp only [Heap.put_world] at this ⊢
    cases hs : spec k w with
    | ok a w' =>
      rw [hs] at this
      obtain ⟨h', h1, h2, h3⟩ := this
      refine ⟨h', h1, h2, fun l hl => ?_⟩
      have e : h.SameAt (h.put dst k w) l :=
        ⟨h.put_state_ne k w (not_owned_ne hl hd), rfl, rfl, rfl⟩
      exact (e.setAll _).trans (h3 l hl)
    | err e w' =>
      rw [hs] at this
      obtain ⟨h', h1, h2, h3⟩ := this
      refine ⟨h', h1, h2, fun l hl he => ?_⟩
      have e : h.SameAt (h.put dst k w) l :=
        ⟨h.put_state_ne k w (not_owned_ne hl hd), rfl, rfl, rfl⟩
      exact e.trans (h3 l hl he)
    | ub => rw [hs] at this; exact this
    | div => rw [hs] at this; exact this
  | err e w => exact ⟨_, rfl, rfl, fun l _ _ => ⟨rfl, rfl, rfl, rfl⟩⟩
  | ub => rfl
  | div => rfl

theorem Computes.mono {os os' : List Owner} {h : Heap K V W} {p : StepM K V W β} {spec : M W α} {ret : α → β}
    {outs : α → List (Loc × V)} {exc : List Loc} (H : Computes os h p spec ret outs exc) (ho : ∀ o ∈ os, o ∈ os') :
    Computes os' h p spec ret outs exc := by
  unfold Computes at *
  cases hs : spec h.world with
  | ok a w =>
    rw [hs] at H
    obtain ⟨h', a1, a2, a3⟩ := H
    exact ⟨h', a1, a2, fun l hl => a3 l (not_owned_sub hl ho)⟩
  | err e w =>
    rw [hs] at H
    obtain ⟨h', a1, a2, a3⟩ := H
    exact ⟨h', a1, a2, fun l hl => a3 l (not_owned_sub hl ho)⟩
  | ub => rw [hs] at H; exact H
  | div => rw [hs] at H; exact H

/-! ## Systems that do not throw -/

/-- the program always returns -/
def Total (m : M W α) : Prop := ∀ w, ∃ a w', m w = .ok a w'

theorem Total.pure (a : α) : Total (pure a : M W α) := fun w => ⟨a, w, rfl⟩

theorem Total.bind {m : M W α} {f : α → M W β} (h : Total m) (hf : ∀ a, Total (f a)) : Total (m >>= f) := by
  intro w
  obtain ⟨a, w1, h1⟩ := h w
  obtain ⟨b, w2, h2⟩ := hf a w1
  exact ⟨b, w2, by rw [M.bind_apply, h1]; exact h2⟩

section Total
variable [Sub K] [Mul K] [Div K] [Neg K] [IntCast K] [StateOps K V]

theorem rkStages_total (sys : Sys K V W) (htot : ∀ v t w, ∃ v' w', sys v t w = .ok v' w') (x : V) (t dt : K)
    (l : List (K × List K)) : ∀ (ks : List V) (w : W), ∃ ks' w', rkStages sys x t dt l ks w = .ok ks' w' := by
  induction l with
  | nil => intro ks w; exact ⟨ks, w, rfl⟩
  | cons p l ih =>
    intro ks w
    obtain ⟨c, a⟩ := p
    obtain ⟨k, w1, hk⟩ := htot (lin ((lit 1, x) :: (a.map (· * dt)).zip ks)) (t + c * dt) w
    obtain ⟨ks', w', h⟩ := ih (ks ++ [k]) w1
    exact ⟨ks', w', by rw [rkStages, M.bind_apply, hk]; exact h⟩

theorem errRecipe_total (s : ErrorStepper K) (sys : Sys K V W) (htot : ∀ v t w, ∃ v' w', sys v t w = .ok v' w')
    (x k : V) (t dt : K) (w : W) : ∃ r w', s.errRecipe sys x k t dt w = .ok r w' := by
  have gen : ∀ (T : Tableau K) (b2 : List K), ∃ r w', rkErrStep T b2 sys x k t dt w = .ok r w' := by
    intro T b2
    obtain ⟨ks, w', h⟩ := rkStages_total sys htot x t dt (T.c.tail.zip T.a) [k] w
    exact ⟨_, w', by rw [rkErrStep, M.bind_apply, rkAllStages, h]; rfl⟩
  cases s with
  | generic T b2 => exact gen T b2
  | cashKarp => exact gen _ _
  | fehlberg => exact gen _ _
  | cashKarpClassic =>
    have T : ∀ v t, Total (sys v t) := fun v t w => htot v t w
    exact ((((T _ _).bind fun k2 => (T _ _).bind fun k3 => (T _ _).bind fun k4 => (T _ _).bind fun k5 =>
      (T _ _).bind fun k6 => Total.pure _).bind fun r => Total.pure _) : Total (cashKarpClassicErrStep sys x k t dt)) w

end Total

/-! ## FSAL -/

/-- what the FSAL error stepper does, in the form used by the controller -/
theorem fsalErr_val [Sub K] [Mul K] [Div K] [IntCast K] [StateOps K V] (sys : Sys K V W)
    (inp dxdtIn out dxdtOut : Loc) (t dt : K) (h : Heap K V W)
    (hi : ¬ inp.ownedBy ctrlOwners) (hd : ¬ dxdtIn.ownedBy ctrlOwners)
    (ho : ¬ out.ownedBy [.rk]) (hdo : ¬ dxdtOut.ownedBy [.rk]) (hne : out ≠ dxdtOut) (hdi : dxdtIn ≠ out) :
    Implements [.rk, .base] h (fsalStep8 dopri5ErrImpl sys inp dxdtIn t out dxdtOut dt mXerr)
      (dopri5ErrStep sys (h.state inp) (h.state dxdtIn) t dt)
      (fun r => [(out, r.1.1), (dxdtOut, r.1.2), (mXerr, r.2)]) [out, dxdtOut] := by
  have H := dopri5Err_implements sys inp dxdtIn out dxdtOut mXerr t dt (h.putFlag mFirstCall true)
    (not_owned_sub hi (by simp)) (not_owned_sub hd (by simp)) ho hdo hne hdi
  unfold Implements dopri5ErrStep at *
  simp only [M.bind_apply, Heap.putFlag_state, Heap.putFlag_world] at H ⊢
  have e : ∀ l, ¬ l.ownedBy [.rk, .base] → h.SameAt (h.putFlag mFirstCall true) l := by
    intro l hl
    refine ⟨rfl, rfl, ?_, rfl⟩
    exact Heap.putFlag_flag_ne _ _ (not_owned_ne (d := mFirstCall) hl (by simp [mFirstCall, Loc.ownedBy]))
  cases hs : dopri5Step sys (h.state inp) (h.state dxdtIn) t dt h.world with
  | ok r w =>
    rw [hs] at H
    obtain ⟨h', a1, a2, a3⟩ := H
    exact ⟨h', a1, a2, fun l hl => ((e l hl).setAll _).trans (a3 l (not_owned_sub hl (by simp)))⟩
  | err r w =>
    rw [hs] at H
    obtain ⟨h', a1, a2, a3⟩ := H
    exact ⟨h', a1, a2, fun l hl hx => (e l hl).trans (a3 l (not_owned_sub hl (by simp)) hx)⟩
  | ub => rw [hs] at H; exact H
  | div => rw [hs] at H; exact H


/-- FSAL version 4 for any FSAL stepper that implements its recipe. -/
theorem fsalTry4_computes (P : CtrlParams K V) (impl : FsalErrImpl K V W) (step : Recipe K V W ((V × V) × V))
    (sys : Sys K V W) (inp dxdt out dxdtOut : Loc) (t dt : K) (h : Heap K V W)
    (hi : ¬ inp.ownedBy ctrlOwners) (hd : ¬ dxdt.ownedBy ctrlOwners) (ho : ¬ out.ownedBy [.rk, .base])
    (hdo : ¬ dxdtOut.ownedBy [.rk, .base])
    (hio : inp ≠ out) (hid : inp ≠ dxdtOut) (hdi : dxdt ≠ out) (hdd : dxdt ≠ dxdtOut) (hne : out ≠ dxdtOut)
    (hoe : out ≠ mXerr) (hde : dxdtOut ≠ mXerr)
    (H : Implements [.rk, .base] h (fsalStep8 impl sys inp dxdt t out dxdtOut dt mXerr)
      (step sys (h.state inp) (h.state dxdt) t dt)
      (fun r => [(out, r.1.1), (dxdtOut, r.1.2), (mXerr, r.2)]) [out, dxdtOut]) :
    Computes ctrlOwners h (fsalTry4 P impl sys inp dxdt t out dxdtOut dt)
      (fsalTrial P step sys (h.state inp) (h.state dxdt) t dt) (Trial.out t dt) (Trial.outOfPlaceFsal out dxdtOut)
      [out, dxdtOut] ∧
    (∀ tr w h', fsalTrial P step sys (h.state inp) (h.state dxdt) t dt h.world = .ok tr w →
      fsalTry4 P impl sys inp dxdt t out dxdtOut dt h = .ok (tr.out t dt) h' →
      h'.state out = (h.setAll (tr.outOfPlaceFsal out dxdtOut)).state out ∧
      h'.state dxdtOut = (h.setAll (tr.outOfPlaceFsal out dxdtOut)).state dxdtOut) := by
  have hie : inp ≠ mXerr := not_owned_ne hi mXerr_owned
  have hxe : dxdt ≠ mXerr := not_owned_ne hd mXerr_owned
  unfold Computes fsalTrial fsalTry4
  by_cases hc : P.adjuster.checkStepSizeLimit dt = false
  · simp only [hc, Bool.not_false, if_true]
    refine ⟨⟨h, rfl, rfl, fun l _ => Heap.SameAt.refl _ _⟩, ?_⟩
    intro tr w h' h1 h2
    simp only [M.pure_apply, Res.ok.injEq] at h1 h2
    obtain ⟨rfl, -⟩ := h1
    rw [← h2.2]
    exact ⟨rfl, rfl⟩
  · simp only [Bool.not_eq_false] at hc
    simp only [hc, Bool.true_eq_false, if_false, Bool.not_true]
    unfold Implements at H
    simp only [M.bind_apply, pure_bind]
    cases hs : step sys (h.state inp) (h.state dxdt) t dt h.world with
    | ok r w =>
      rw [hs] at H
      obtain ⟨h', a1, a2, a3⟩ := H
      have e1 : h'.state inp = h.state inp := by
        rw [(a3 inp (not_owned_sub hi (by simp))).1]
        simp [Heap.set_state_apply, hio, hie, hid]
      have e2 : h'.state dxdt = h.state dxdt := by
        rw [(a3 dxdt (not_owned_sub hd (by simp))).1]
        simp [Heap.set_state_apply, hdi, hxe, hdd]
      have e3 : h'.state mXerr = r.2 := by
        rw [(a3 mXerr (by simp [mXerr, Loc.ownedBy])).1]
        simp
      have e4 : h'.state out = r.1.1 := by
        rw [(a3 out ho).1]
        simp [Heap.set_state_apply, hoe, hne]
      have e5 : h'.state dxdtOut = r.1.2 := by
        rw [(a3 dxdtOut hdo).1]
        simp [Heap.set_state_apply, hde]
      have frame : ∀ l, ¬ l.ownedBy ctrlOwners → (h.setAll [(out, r.1.1), (dxdtOut, r.1.2)]).SameAt h' l := by
        intro l hl
        have : l ≠ mXerr := not_owned_ne hl mXerr_owned
        refine Heap.SameAt.trans ?_ (a3 l (not_owned_sub hl (by simp)))
        exact Heap.SameAt.set_ne _ _ this
      simp only [Bool.false_eq_true, if_false, M.bind_apply, a1, callChecker', e1, e2, e3, decide', M.pure_apply]
      split_ifs with hg
      all_goals
        refine ⟨⟨h'.set mXerr (P.checker.error (h.state inp) (h.state dxdt) r.2 dt).1, rfl, a2, fun l hl => ?_⟩, ?_⟩
        · exact (frame l hl).trans (Heap.SameAt.set_ne _ _ (not_owned_ne hl mXerr_owned))
        · intro tr w' h'' h1 h2
          simp only [Res.ok.injEq] at h1 h2
          obtain ⟨rfl, -⟩ := h1
          rw [← h2.2]
          simp [Trial.outOfPlaceFsal, Heap.set_state_apply, hoe, e4, e5, hne, hde]
    | err e w =>
      rw [hs] at H
      obtain ⟨h', a1, a2, a3⟩ := H
      simp only [Bool.false_eq_true, if_false, M.bind_apply, a1]
      refine ⟨⟨h', rfl, a2, fun l hl hle => a3 l (not_owned_sub hl (by simp)) hle⟩, ?_⟩
      rintro _ _ _ h1; cases h1
    | ub => rw [hs] at H; simp only at H; simp [M.bind_apply, H]
    | div => rw [hs] at H; simp only at H; simp [M.bind_apply, H]

theorem fsalTry3_computes (P : CtrlParams K V) (impl : FsalErrImpl K V W) (step : Recipe K V W ((V × V) × V))
    (sys : Sys K V W) (x dxdt : Loc) (t dt : K) (h : Heap K V W)
    (hx : ¬ x.ownedBy ctrlOwners) (hd : ¬ dxdt.ownedBy ctrlOwners)
    (H : Implements [.rk, .base] h (fsalStep8 impl sys x dxdt t mXnew mDxdtNew dt mXerr)
      (step sys (h.state x) (h.state dxdt) t dt)
      (fun r => [(mXnew, r.1.1), (mDxdtNew, r.1.2), (mXerr, r.2)]) [mXnew, mDxdtNew]) :
    Computes ctrlOwners h (fsalTry3 P impl sys x dxdt t dt)
      (fsalTrial P step sys (h.state x) (h.state dxdt) t dt) (Trial.out t dt) (Trial.inPlaceFsal x dxdt) [] := by
  obtain ⟨h4, hn⟩ := fsalTry4_computes P impl step sys x dxdt mXnew mDxdtNew t dt h hx hd
    (by simp [mXnew, Loc.ownedBy]) (by simp [mDxdtNew, Loc.ownedBy])
    (not_owned_ne hx mXnew_owned) (not_owned_ne hx mDxdtNew_owned) (not_owned_ne hd mXnew_owned)
    (not_owned_ne hd mDxdtNew_owned) (by simp [mXnew, mDxdtNew]) (by simp [mXnew, mXerr])
    (by simp [mDxdtNew, mXerr]) H
  unfold Computes at *
  unfold fsalTry3
  simp only [M.bind_apply]
  cases hs : fsalTrial P step sys (h.state x) (h.state dxdt) t dt h.world with
  | ok tr w =>
    rw [hs] at h4
    obtain ⟨h', a1, a2, a3⟩ := h4
    have hn' := hn tr w h' hs a1
    have fr : ∀ (y : V × V) l, ¬ l.ownedBy ctrlOwners → h.SameAt (h.setAll [(mXnew, y.1), (mDxdtNew, y.2)]) l :=
      fun y l hl => (Heap.SameAt.set_ne h y.1 (not_owned_ne hl mXnew_owned)).trans
        (Heap.SameAt.set_ne _ _ (not_owned_ne hl mDxdtNew_owned))
    rw [a1]
    cases tr with
    | limited dt' =>
      exact ⟨h', rfl, a2, a3⟩
    | rejected y e dt' =>
      exact ⟨h', rfl, a2, fun l hl => (fr y l hl).trans (a3 l hl)⟩
    | accepted y e dt' =>
      refine ⟨(h'.set x (h'.state mXnew)).set dxdt ((h'.set x (h'.state mXnew)).state mDxdtNew), rfl, a2,
        fun l hl => ?_⟩
      have e1 : h'.state mXnew = y.1 := by
        rw [hn'.1]; simp [Trial.outOfPlaceFsal, Heap.set_state_apply, mXnew, mDxdtNew]
      have e2 : (h'.set x (h'.state mXnew)).state mDxdtNew = y.2 := by
        rw [Heap.set_state_apply, if_neg (not_owned_ne hx mDxdtNew_owned).symm, hn'.2]
        simp [Trial.outOfPlaceFsal]
      rw [e2, e1]
      exact (((fr y l hl).trans (a3 l hl)).set x y.1).set dxdt y.2
  | err e w =>
    rw [hs] at h4
    obtain ⟨h', a1, a2, a3⟩ := h4
    rw [a1]
    exact ⟨h', rfl, a2, fun l hl _ => a3 l hl (by
      simp only [List.mem_cons, List.not_mem_nil, or_false, not_or]
      exact ⟨not_owned_ne hl mXnew_owned, not_owned_ne hl mDxdtNew_owned⟩)⟩
  | ub => rw [hs] at h4; rw [h4]
  | div => rw [hs] at h4; rw [h4]

end Verif
