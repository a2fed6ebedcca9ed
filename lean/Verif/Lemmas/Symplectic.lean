import Verif.Lemmas.Steps
import Verif.Spec.Symplectic

set_option linter.unusedSectionVars false

namespace Verif
variable {K V W α : Type}

theorem callFun_eq (f : V → M W V) (src dst : Loc) (t : K) :
    (callFun f src dst : StepM K V W Unit) = callSys (fun x _ => f x) src dst t := rfl

/-- A call of a function of a separable system into a private object. -/
theorem Implements.funCall {os : List Owner} {h : Heap K V W} {p : Unit → StepM K V W Unit}
    {f : V → M W V} {spec : V → M W α} {outs : α → List (Loc × V)} {exc : List Loc} {src dst : Loc}
    {x : V} (t : K) (hd : dst.ownedBy os) (hx : h.state src = x)
    (H : ∀ k w, Implements os (h.put dst k w) (p ()) (spec k) outs exc) :
    Implements os h (callFun f src dst >>= p) (f x >>= spec) outs exc := by
  rw [callFun_eq f src dst t]
  exact Implements.sys (f := fun x _ => f x) hd hx H

variable [Add K] [Sub K] [Mul K] [Div K] [IntCast K] [StateOps K V]

theorem owned_dqdt : mDqdt.ownedBy [.symp] := by simp [mDqdt, Loc.ownedBy]
theorem owned_dpdt : mDpdt.ownedBy [.symp] := by simp [mDpdt, Loc.ownedBy]
theorem dqdt_ne_dpdt : mDqdt ≠ mDpdt := by decide

/-- One pass of the loop, with general input objects. -/
theorem rkn_pass (coor mom : V → M W V) (qin pin qout pout : Loc) (dt a b : K) (h : Heap K V W)
    (rest : Unit → StepM K V W Unit) (spec : V → V → M W (V × V))
    (hqo : ¬ qout.ownedBy [.symp]) (hpo : ¬ pout.ownedBy [.symp])
    (hqi : ¬ qin.ownedBy [.symp]) (hpi : ¬ pin.ownedBy [.symp]) (hqp : qout ≠ pout) (hqpi : qout ≠ pin)
    (H : ∀ h' : Heap K V W, Implements [.symp] h' (rest ()) (spec (h'.state qout) (h'.state pout))
      (fun r => [(qout, r.1), (pout, r.2)]) [qout, pout]) :
    Implements [.symp] h
      (do callFun coor pin mDqdt
          linTo qout [(lit 1, qin), (a * dt, mDqdt)]
          callFun mom qout mDpdt
          linTo pout [(lit 1, pin), (b * dt, mDpdt)]
          rest ())
      (do let dq ← coor (h.state pin)
          let dp ← mom (lin [(lit 1, h.state qin), (a * dt, dq)])
          spec (lin [(lit 1, h.state qin), (a * dt, dq)]) (lin [(lit 1, h.state pin), (b * dt, dp)]))
      (fun r => [(qout, r.1), (pout, r.2)]) [qout, pout] := by
  refine Implements.funCall dt owned_dqdt rfl fun dq w => ?_
  have q1 := not_owned_ne hqo owned_dqdt
  have q2 := not_owned_ne hqo owned_dpdt
  have p1 := not_owned_ne hpo owned_dqdt
  have p2 := not_owned_ne hpo owned_dpdt
  have i1 := not_owned_ne hqi owned_dqdt
  have i2 := not_owned_ne hpi owned_dqdt
  have i3 := not_owned_ne hpi owned_dpdt
  refine Implements.vstore (v := lin [(lit 1, h.state qin), (a * dt, dq)]) (by simp) (by simp) ?_ ?_
  · simp [Heap.put_state_ne _ _ _ i1]
  refine Implements.funCall dt owned_dpdt (Heap.set_state_self _ _ _) fun dp w' => ?_
  refine Implements.vstore (v := lin [(lit 1, h.state pin), (b * dt, dp)]) (by simp) (by simp) ?_ ?_
  · simp [Heap.put_state_ne _ _ _ i2, Heap.put_state_ne _ _ _ i3, Heap.set_state_ne _ _ hqpi.symm]
  refine (H _).congr_spec ?_
  simp [Heap.set_state_ne _ _ hqp, Heap.put_state_ne _ _ _ q2]

theorem rknLoop_implements (coor mom : V → M W V) (q p : Loc) (dt : K)
    (hq : ¬ q.ownedBy [.symp]) (hp : ¬ p.ownedBy [.symp]) (hqp : q ≠ p) (coef : List (K × K)) :
    ∀ h : Heap K V W, Implements [.symp] h (rknLoop coor mom q p dt coef)
      (rknRecipe coor mom dt coef (h.state q) (h.state p)) (fun r => [(q, r.1), (p, r.2)]) [q, p] := by
  induction coef with
  | nil =>
    intro h
    refine Implements.ret fun l _ => ?_
    refine ⟨?_, rfl, rfl, rfl⟩
    simp only [Heap.setAll_cons, Heap.setAll_nil, Heap.set_state_apply]
    split_ifs with h1 h2
    · rw [h1]
    · rw [h2]
    · rfl
  | cons c cs ih =>
    intro h
    obtain ⟨a, b⟩ := c
    exact rkn_pass coor mom q p q p dt a b h (fun _ => rknLoop coor mom q p dt cs) (rknRecipe coor mom dt cs) hq hp hq hp
      hqp hqp ih

theorem rknStepPair_implements (coor mom : V → M W V) (qin pin qout pout : Loc) (dt : K)
    (hqi : ¬ qin.ownedBy [.symp]) (hpi : ¬ pin.ownedBy [.symp])
    (hqo : ¬ qout.ownedBy [.symp]) (hpo : ¬ pout.ownedBy [.symp]) (hqp : qout ≠ pout) (hqpi : qout ≠ pin)
    (coef : List (K × K)) (hc : coef ≠ []) (h : Heap K V W) :
    Implements [.symp] h (rknStepPair coef coor mom qin pin qout pout dt)
      (rknRecipe coor mom dt coef (h.state qin) (h.state pin)) (fun r => [(qout, r.1), (pout, r.2)])
      [qout, pout] := by
  obtain ⟨⟨a, b⟩, cs, rfl⟩ := List.exists_cons_of_ne_nil hc
  exact rkn_pass coor mom qin pin qout pout dt a b h (fun _ => rknLoop coor mom qout pout dt cs)
    (rknRecipe coor mom dt cs) hqo hpo hqi hpi hqp hqpi
    (rknLoop_implements coor mom qout pout dt hqo hpo hqp cs)

theorem rkn_mom_pass (mom : V → M W V) (qin pin qout pout : Loc) (dt a b : K) (h : Heap K V W)
    (rest : Unit → StepM K V W Unit) (spec : V → V → M W (V × V))
    (hqo : ¬ qout.ownedBy [.symp])
    (hpi : ¬ pin.ownedBy [.symp]) (hqp : qout ≠ pout) (hqpi : qout ≠ pin)
    (H : ∀ h' : Heap K V W, Implements [.symp] h' (rest ()) (spec (h'.state qout) (h'.state pout))
      (fun r => [(qout, r.1), (pout, r.2)]) [qout, pout]) :
    Implements [.symp] h
      (do linTo qout [(lit 1, qin), (a * dt, pin)]
          callFun mom qout mDpdt
          linTo pout [(lit 1, pin), (b * dt, mDpdt)]
          rest ())
      (do let dp ← mom (lin [(lit 1, h.state qin), (a * dt, h.state pin)])
          spec (lin [(lit 1, h.state qin), (a * dt, h.state pin)]) (lin [(lit 1, h.state pin), (b * dt, dp)]))
      (fun r => [(qout, r.1), (pout, r.2)]) [qout, pout] := by
  have q2 := not_owned_ne hqo owned_dpdt
  have i3 := not_owned_ne hpi owned_dpdt
  refine Implements.vstore (v := lin [(lit 1, h.state qin), (a * dt, h.state pin)]) (by simp) (by simp) rfl ?_
  refine Implements.funCall dt owned_dpdt (Heap.set_state_self _ _ _) fun dp w' => ?_
  refine Implements.vstore (v := lin [(lit 1, h.state pin), (b * dt, dp)]) (by simp) (by simp) ?_ ?_
  · simp [Heap.put_state_ne _ _ _ i3, Heap.set_state_ne _ _ hqpi.symm]
  refine (H _).congr_spec ?_
  simp [Heap.set_state_ne _ _ hqp, Heap.put_state_ne _ _ _ q2]

theorem rknMomLoop_implements (mom : V → M W V) (q p : Loc) (dt : K)
    (hq : ¬ q.ownedBy [.symp]) (hp : ¬ p.ownedBy [.symp]) (hqp : q ≠ p) (coef : List (K × K)) :
    ∀ h : Heap K V W, Implements [.symp] h (rknMomLoop mom q p dt coef)
      (rknRecipe pure mom dt coef (h.state q) (h.state p)) (fun r => [(q, r.1), (p, r.2)]) [q, p] := by
  induction coef with
  | nil =>
    intro h
    refine Implements.ret fun l _ => ?_
    refine ⟨?_, rfl, rfl, rfl⟩
    simp only [Heap.setAll_cons, Heap.setAll_nil, Heap.set_state_apply]
    split_ifs with h1 h2
    · rw [h1]
    · rw [h2]
    · rfl
  | cons c cs ih =>
    intro h
    obtain ⟨a, b⟩ := c
    exact rkn_mom_pass mom q p q p dt a b h (fun _ => rknMomLoop mom q p dt cs) (rknRecipe pure mom dt cs) hq hp hqp hqp ih

theorem rknStepMom_implements (mom : V → M W V) (qin pin qout pout : Loc) (dt : K)
    (hpi : ¬ pin.ownedBy [.symp])
    (hqo : ¬ qout.ownedBy [.symp]) (hpo : ¬ pout.ownedBy [.symp]) (hqp : qout ≠ pout) (hqpi : qout ≠ pin)
    (coef : List (K × K)) (hc : coef ≠ []) (h : Heap K V W) :
    Implements [.symp] h (rknStepMom coef mom qin pin qout pout dt)
      (rknRecipe pure mom dt coef (h.state qin) (h.state pin)) (fun r => [(qout, r.1), (pout, r.2)])
      [qout, pout] := by
  obtain ⟨⟨a, b⟩, cs, rfl⟩ := List.exists_cons_of_ne_nil hc
  exact rkn_mom_pass mom qin pin qout pout dt a b h (fun _ => rknMomLoop mom qout pout dt cs)
    (rknRecipe pure mom dt cs) hqo hpi hqp hqpi
    (rknMomLoop_implements mom qout pout dt hqo hpo hqp cs)

end Verif
