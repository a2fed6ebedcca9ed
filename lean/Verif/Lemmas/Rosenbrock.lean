import Verif.Spec.Rosenbrock
import Verif.Lemmas.DenseRk
import Verif.Lemmas.RungeKutta

set_option linter.unusedSectionVars false

namespace Verif
variable {K V W Mat α : Type}

/-- A call of the Jacobian into a private object. -/
theorem Implements.jac {os : List Owner} {h : Heap K V W} {p : Mat → StepM K V W Unit}
    {jac : Jac K V W Mat} {spec : Mat × V → M W α} {outs : α → List (Loc × V)} {exc : List Loc} {src dst : Loc} {t : K}
    {x : V} (hd : dst.ownedBy os) (hx : h.state src = x)
    (H : ∀ J k w, Implements os (h.put dst k w) (p J) (spec (J, k)) outs exc) :
    Implements os h (callJac jac src dst t >>= p) (jac x t >>= spec) outs exc := by
  unfold Implements
  rw [M.bind_apply, M.bind_apply, callJac, hx]
  cases hf : jac x t h.world with
  | ok k w =>
    have := H k.1 k.2 w
    unfold Implements at this
    simp only [Heap.put_world] at this ⊢
    cases hs : spec k w with
    | ok a w' =>
      rw [hs] at this
      obtain ⟨h', h1, h2, h3⟩ := this
      refine ⟨h', h1, h2, fun l hl => ?_⟩
      have e : h.SameAt (h.put dst k.2 w) l :=
        ⟨h.put_state_ne k.2 w (not_owned_ne hl hd), rfl, rfl, rfl⟩
      exact (e.setAll _).trans (h3 l hl)
    | err e w' =>
      rw [hs] at this
      obtain ⟨h', h1, h2, h3⟩ := this
      refine ⟨h', h1, h2, fun l hl he => ?_⟩
      have e : h.SameAt (h.put dst k.2 w) l :=
        ⟨h.put_state_ne k.2 w (not_owned_ne hl hd), rfl, rfl, rfl⟩
      exact e.trans (h3 l hl he)
    | ub => rw [hs] at this; exact this
    | div => rw [hs] at this; exact this
  | err e w => exact ⟨_, rfl, rfl, fun l _ _ => ⟨rfl, rfl, rfl, rfl⟩⟩
  | ub => rfl
  | div => rfl

/-- A right-hand side is computed in, and replaced by the solution in, one of the result objects. -/
theorem Implements.vsolve [StateOps K V] {os : List Owner} {h : Heap K V W} {p : Unit → StepM K V W Unit}
    {spec : M W α} {outs : α → List (Loc × V)} {exc : List Loc} {dst : Loc} {l : List (K × Loc)} {s : V → V} {v : V}
    (he : dst ∈ exc) (ho : ∀ a, dst ∈ (outs a).map Prod.fst)
    (hv : s (lin (l.map fun q => (q.1, h.state q.2))) = v)
    (H : Implements os (h.set dst v) (p ()) spec outs exc) :
    Implements os h (linTo dst l >>= fun _ => solveIn s dst >>= p) spec outs exc := by
  have hp : (linTo dst l >>= fun _ => solveIn s dst >>= p) h = p () (h.set dst v) := by
    rw [M.bind_apply]
    simp only [linTo]
    rw [M.bind_apply]
    simp only [solveIn, Heap.set_state_self, hv]
    congr 1
    simp [Heap.set]
  unfold Implements at H ⊢
  rw [hp]
  simp only [Heap.set_world] at H
  cases hs : spec h.world with
  | ok a w =>
    rw [hs] at H
    obtain ⟨h', h1, h2, h3⟩ := H
    exact ⟨h', h1, h2, fun l hl => (setAll_set_sameAt h v (ho a) l).trans (h3 l hl)⟩
  | err e w =>
    rw [hs] at H
    obtain ⟨h', h1, h2, h3⟩ := H
    refine ⟨h', h1, h2, fun l hl hle => (Heap.SameAt.set_ne h v ?_).trans (h3 l hl hle)⟩
    rintro rfl; exact hle he
  | ub => rw [hs] at H; exact H
  | div => rw [hs] at H; exact H

/-- The end of the step. -/
theorem Implements.rosEnd [StateOps K V] {os : List Owner} {h : Heap K V W} {xerr xout : Loc} {l l' : List (K × Loc)}
    {s : V → V} {a : α} {outs : α → List (Loc × V)} {exc : List Loc} {v v' : V}
    (hv : s (lin (l.map fun q => (q.1, h.state q.2))) = v)
    (hv' : lin (l'.map fun q => (q.1, (h.set xerr v).state q.2)) = v')
    (H : ∀ l, ¬ l.ownedBy os → (h.setAll (outs a)).SameAt ((h.set xerr v).set xout v') l) :
    Implements os h (linTo xerr l >>= fun _ => solveIn s xerr >>= fun _ => linTo xout l') (pure a : M W α) outs exc := by
  refine ⟨(h.set xerr v).set xout v', ?_, rfl, H⟩
  rw [M.bind_apply]
  simp only [linTo]
  rw [M.bind_apply]
  simp only [solveIn, Heap.set_state_self, hv]
  have : (h.set xerr (lin (l.map fun q => (q.1, h.state q.2)))).set xerr v = h.set xerr v := by simp [Heap.set]
  rw [this]
  simp only [linTo, hv']

section
variable [Add K] [Sub K] [Mul K] [Div K] [IntCast K] [StateOps K V]

/-- What a step leaves behind. -/
def rosOuts (K : Type) [IntCast K] [StateOps K V] (xout xerr : Loc) (r : RosStages V) : List (Loc × V) :=
  [(rG 1, r.g1), (rG 2, r.g2), (rG 3, r.g3), (rG 4, r.g4), (rG 5, r.g5), (xerr, r.g6), (xout, r.x K)]

/-- The objects that may have changed when the step throws. -/
def rosGs : List Loc := [rG 1, rG 2, rG 3, rG 4, rG 5]

macro "roslookup" : tactic =>
  `(tactic| (simp only [List.map, Heap.set_state_apply, Heap.put_state_apply, rDxdt, rDfdt, rDxdtNew, rXtmp, rG,
      Loc.priv.injEq, reduceCtorEq, and_true, true_and, and_false, false_and, if_true, if_false, *,
      ↓reduceIte, Nat.reduceAdd, Nat.reduceEqDiff, OfNat.ofNat_ne_zero, OfNat.ofNat_ne_one, OfNat.one_ne_ofNat, OfNat.zero_ne_ofNat, one_ne_zero, zero_ne_one, ne_eq, not_false_eq_true]))

theorem ros_implements (C : RosCoef K) (solve : K → Mat → V → V) (sys : Sys K V W) (jac : Jac K V W Mat)
    (x : Loc) (t : K) (xout : Loc) (dt : K) (xerr : Loc) (h : Heap K V W)
    (hx : ¬ x.ownedBy [.rk, .ros]) (hxt : xerr ≠ rXtmp) (hxr : ¬ xerr.ownedBy [.ros]) (hor : ¬ xout.ownedBy [.ros]) :
    Implements [.rk] h (rosDoStep6 C solve sys jac x t xout dt xerr) (rosStep C solve sys jac (h.state x) t dt)
      (rosOuts K xout xerr) rosGs := by
  have h1 : ∀ i, x ≠ .priv .rk i := fun i => by rintro rfl; exact hx (by simp [Loc.ownedBy])
  have h2 : ∀ i, x ≠ .priv .ros i := fun i => by rintro rfl; exact hx (by simp [Loc.ownedBy])
  have h3 : ∀ i, xerr ≠ .priv .ros i := fun i => by rintro rfl; exact hxr (by simp [Loc.ownedBy])
  have h4 : ∀ i, xout ≠ .priv .ros i := fun i => by rintro rfl; exact hor (by simp [Loc.ownedBy])
  have h3' : ∀ i, .priv .ros i ≠ xerr := fun i => (h3 i).symm
  have h4' : ∀ i, .priv .ros i ≠ xout := fun i => (h4 i).symm
  have hxt' : (Loc.priv .rk 3) ≠ xerr := hxt.symm
  unfold rosDoStep6 rosStep
  refine Implements.sys (rk_owned _) rfl fun k1 w => ?_
  refine Implements.jac (rk_owned _) (by roslookup) fun J ft w => ?_
  refine Implements.vsolve (by simp [rosGs]) (by simp [rosOuts]) rfl ?_
  refine Implements.store (rk_owned _) rfl ?_
  refine Implements.sys (rk_owned _) (by roslookup) fun k2 w => ?_
  refine Implements.vsolve (by simp [rosGs]) (by simp [rosOuts]) rfl ?_
  refine Implements.store (rk_owned _) rfl ?_
  refine Implements.sys (rk_owned _) (by roslookup) fun k3 w => ?_
  refine Implements.vsolve (by simp [rosGs]) (by simp [rosOuts]) rfl ?_
  refine Implements.store (rk_owned _) rfl ?_
  refine Implements.sys (rk_owned _) (by roslookup) fun k4 w => ?_
  refine Implements.vsolve (by simp [rosGs]) (by simp [rosOuts]) rfl ?_
  refine Implements.store (rk_owned _) rfl ?_
  refine Implements.sys (rk_owned _) (by roslookup) fun k5 w => ?_
  refine Implements.vsolve (by simp [rosGs]) (by simp [rosOuts]) rfl ?_
  refine Implements.store (rk_owned _) rfl ?_
  refine Implements.sys (rk_owned _) (by roslookup) fun k6 w => ?_
  refine Implements.rosEnd rfl rfl fun l hl => ⟨?_, rfl, rfl, rfl⟩
  have hl' : ∀ i, l ≠ .priv .rk i := ne_rk hl
  simp only [rosOuts, RosStages.x, Heap.setAll_cons, Heap.setAll_nil]
  by_cases e1 : l = xout
  · subst e1; roslookup
  by_cases e2 : l = xerr
  · subst e2; roslookup
  by_cases e3 : l = rG 5
  · subst e3; roslookup
  by_cases e4 : l = rG 4
  · subst e4; roslookup
  by_cases e5 : l = rG 3
  · subst e5; roslookup
  by_cases e6 : l = rG 2
  · subst e6; roslookup
  by_cases e7 : l = rG 1
  · subst e7; roslookup
  simp only [rG] at e3 e4 e5 e6 e7
  roslookup

/-! ## The controller -/

theorem setRosMem_apply (m : RosMem K) (h : Heap K V W) : setRosMem m h =
    .ok () ((((h.putFlag rFirst m.first).putNum rErrOld m.errOld).putNum rDtOld m.dtOld).putFlag rLastRej m.lastRejected) :=
  rfl

/-- the heap after `setRosMem` -/
def Heap.putRosMem (h : Heap K V W) (m : RosMem K) : Heap K V W :=
  ((((h.putFlag rFirst m.first).putNum rErrOld m.errOld).putNum rDtOld m.dtOld).putFlag rLastRej m.lastRejected)

@[simp] theorem rosMem_putRosMem (h : Heap K V W) (m : RosMem K) : rosMem (h.putRosMem m) = m := by
  simp [rosMem, Heap.putRosMem, Heap.putFlag_flag, Heap.putNum_num, rFirst, rErrOld, rDtOld, rLastRej]

theorem putRosMem_sameAt (h : Heap K V W) (m : RosMem K) (l : Loc) (hl : ¬ l.ownedBy [.ros]) :
    h.SameAt (h.putRosMem m) l := by
  have : ∀ i, l ≠ .priv .ros i := fun i => by rintro rfl; exact hl (by simp [Loc.ownedBy])
  refine ⟨rfl, ?_, ?_, rfl⟩
  · simp [Heap.putRosMem, Heap.putNum_num, rErrOld, rDtOld, this]
  · simp [Heap.putRosMem, Heap.putFlag_flag, rFirst, rLastRej, this]

/-- The state-valued objects are not affected. -/
@[simp] theorem putRosMem_state (h : Heap K V W) (m : RosMem K) : (h.putRosMem m).state = h.state := rfl
@[simp] theorem putRosMem_world (h : Heap K V W) (m : RosMem K) : (h.putRosMem m).world = h.world := rfl

/-- the owners of everything the controller uses -/
abbrev rosOwners : List Owner := [.rk, .ctrl, .ros]

/-- the stages that were computed in a trial -/
def Trial.stages {β : Type} : Trial K β → Option β
  | .limited _ => none
  | .rejected r _ _ => some r
  | .accepted r _ _ => some r

/-- the stages are in the stepper -/
def StagesIn (h : Heap K V W) (r : RosStages V) : Prop :=
  h.state (rG 1) = r.g1 ∧ h.state (rG 2) = r.g2 ∧ h.state (rG 3) = r.g3 ∧ h.state (rG 4) = r.g4 ∧ h.state (rG 5) = r.g5

/-- One `try_step` with separate output object. -/
theorem rosTry5_spec (P : RosParams K V) (C : RosCoef K) (solve : K → Mat → V → V) (sys : Sys K V W)
    (jac : Jac K V W Mat) (x : Loc) (t : K) (xout : Loc) (dt : K) (h : Heap K V W)
    (hx : ¬ x.ownedBy rosOwners) (ho : ¬ xout.ownedBy [.rk, .ros]) (hoe : xout ≠ mXerr) (hxo : x ≠ xout) :
    match rosTrial P C solve sys jac (rosMem h) (h.state x) t dt h.world with
    | .ok (T, m) w => ∃ h', rosTry5 P C solve sys jac x t xout dt h = .ok (T.out t dt) h' ∧ h'.world = w ∧
        rosMem h' = m ∧ (∀ r, T.stages = some r → h'.state xout = r.x K ∧ StagesIn h' r) ∧
        (h'.state rCont3 = h.state rCont3 ∧ h'.state rCont4 = h.state rCont4) ∧
        (∀ l, ¬ l.ownedBy rosOwners → l ≠ xout → h.SameAt h' l)
    | .err e w => ∃ h', rosTry5 P C solve sys jac x t xout dt h = .err e h' ∧ h'.world = w ∧ rosMem h' = rosMem h ∧
        (∀ l, ¬ l.ownedBy rosOwners → h.SameAt h' l)
    | .ub => rosTry5 P C solve sys jac x t xout dt h = .ub
    | .div => rosTry5 P C solve sys jac x t xout dt h = .div := by
  have hor : ∀ i, xout ≠ .priv .ros i := fun i => by rintro rfl; exact ho (by simp [Loc.ownedBy])
  have hxe : x ≠ mXerr := not_owned_ne hx (by simp [mXerr, Loc.ownedBy])
  have hxr : ∀ i, x ≠ .priv .ros i := fun i => by rintro rfl; exact hx (by simp [Loc.ownedBy])
  unfold rosTrial rosTry5
  by_cases hc : (!P.O.eq P.maxDt (lit 0) && P.O.time.lessWithSign P.maxDt dt dt) = true
  · rw [if_pos hc]
    simp only [hc, if_true, M.pure_apply]
    exact ⟨h, rfl, rfl, rfl, by simp [Trial.stages], ⟨rfl, rfl⟩, fun l _ _ => Heap.SameAt.refl _ _⟩
  · rw [if_neg hc]
    simp only [hc, if_false, M.bind_apply, pure_bind]
    have H := ros_implements C solve sys jac x t xout dt mXerr h (not_owned_sub hx (by simp)) (by simp [mXerr, rXtmp])
      (by simp [mXerr, Loc.ownedBy]) (not_owned_sub ho (by simp))
    unfold Implements at H
    cases hs : rosStep C solve sys jac (h.state x) t dt h.world with
    | ok r w =>
      rw [hs] at H
      obtain ⟨h', a1, a2, a3⟩ := H
      have q : ∀ l, ¬ l.ownedBy [.rk] → h'.state l = if l = xout then r.x K else if l = mXerr then r.g6 else
          if l = rG 5 then r.g5 else if l = rG 4 then r.g4 else if l = rG 3 then r.g3 else if l = rG 2 then r.g2 else
          if l = rG 1 then r.g1 else h.state l := by
        intro l hl
        rw [(a3 l hl).1]
        simp [rosOuts, Heap.set_state_apply]
      have qn : ∀ l, ¬ l.ownedBy [.rk] → h'.num l = h.num l ∧ h'.flag l = h.flag l ∧ h'.nat l = h.nat l := by
        intro l hl
        obtain ⟨-, b1, b2, b3⟩ := a3 l hl
        rw [b1, b2, b3]
        simp [rosOuts]
      have nr : ∀ i, ¬ (Loc.priv .ros i).ownedBy [.rk] := by simp [Loc.ownedBy]
      have em : rosMem h' = rosMem h := by
        simp only [rosMem, rFirst, rErrOld, rDtOld, rLastRej, (qn _ (nr _)).1, (qn _ (nr _)).2.1]
      have e1 : h'.state xout = r.x K := by rw [q _ (not_owned_sub ho (by simp))]; simp
      have e2 : h'.state mXerr = r.g6 := by
        rw [q _ (by simp [mXerr, Loc.ownedBy])]; simp [hoe.symm]
      have e3 : h'.state x = h.state x := by
        rw [q _ (not_owned_sub hx (by simp))]; simp [hxo, hxe, rG, hxr]
      have hor' : ∀ i, .priv .ros i ≠ xout := fun i => (hor i).symm
      have es : StagesIn h' r := by
        refine ⟨?_, ?_, ?_, ?_, ?_⟩ <;> rw [rG, q _ (nr _)] <;> simp [hor', mXerr, rG]
      have ec : h'.state rCont3 = h.state rCont3 ∧ h'.state rCont4 = h.state rCont4 := by
        refine ⟨?_, ?_⟩
        · rw [rCont3, q _ (nr _)]; simp [hor', mXerr, rG]
        · rw [rCont4, q _ (nr _)]; simp [hor', mXerr, rG]
      have fr : ∀ l, ¬ l.ownedBy rosOwners → l ≠ xout → h.SameAt h' l := by
        intro l hl hlo
        have n1 : ∀ i, l ≠ .priv .ros i := fun i => by rintro rfl; exact hl (by simp [Loc.ownedBy])
        have n2 : l ≠ mXerr := not_owned_ne hl (by simp [mXerr, Loc.ownedBy])
        have hlk : ¬ l.ownedBy [.rk] := not_owned_sub hl (by simp)
        exact ⟨by rw [q _ hlk]; simp [hlo, n1, n2, rG], (qn _ hlk).1, (qn _ hlk).2.1, (qn _ hlk).2.2⟩
      simp only [Bool.false_eq_true, if_false, M.bind_apply, a1, e1, e2, e3, em, setRosMem_apply, M.pure_apply]
      refine ⟨h'.putRosMem (rosDecide P.O P.maxDt (rosMem h) dt (P.error (r.x K) (h.state x) r.g6)).2.2, ?_, a2, ?_, ?_,
        ec, ?_⟩
      · congr 1
        cases (rosDecide P.O P.maxDt (rosMem h) dt (P.error (r.x K) (h.state x) r.g6)).1 <;> rfl
      · exact rosMem_putRosMem _ _
      · intro r' hr'
        have : r' = r := by
          cases hd : (rosDecide P.O P.maxDt (rosMem h) dt (P.error (r.x K) (h.state x) r.g6)).1 <;> rw [hd] at hr' <;>
            simpa [Trial.stages] using hr'.symm
        subst this
        exact ⟨e1, es⟩
      · intro l hl hlo
        exact (fr l hl hlo).trans (putRosMem_sameAt _ _ _ (not_owned_sub hl (by simp)))
    | err e w =>
      rw [hs] at H
      obtain ⟨h', a1, a2, a3⟩ := H
      simp only [Bool.false_eq_true, if_false, M.bind_apply, a1]
      refine ⟨h', rfl, a2, ?_, fun l hl => a3 l (not_owned_sub hl (by simp)) ?_⟩
      · have nr : ∀ i, 6 ≤ i → h.SameAt h' (Loc.priv .ros i) := fun i hi => a3 _ (by simp [Loc.ownedBy]) (by
          simp [rosGs, rG]; omega)
        simp only [rosMem, rFirst, rErrOld, rDtOld, rLastRej, (nr 20 (by omega)).2.2.1, (nr 21 (by omega)).2.1,
          (nr 22 (by omega)).2.1, (nr 23 (by omega)).2.2.1]
      · intro hm
        simp only [rosGs, List.mem_cons, List.not_mem_nil, or_false] at hm
        apply hl
        rcases hm with rfl | rfl | rfl | rfl | rfl <;> simp [rG, Loc.ownedBy]
    | ub => rw [hs] at H; simp only at H; simp [M.bind_apply, H]
    | div => rw [hs] at H; simp only at H; simp [M.bind_apply, H]

end
end Verif
