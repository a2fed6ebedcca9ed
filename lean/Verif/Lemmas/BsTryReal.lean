import Verif.Lemmas.BsReal
import Verif.Props.BulirschStoer
import Verif.Props.ExtrapolationRun

/-! # One try of `bulirsch_stoer` in real arithmetic, with a system function that always returns -/

namespace Verif

variable {V W : Type} [NormedAddCommGroup V] [NormedSpace ℝ V]

/-- the error measure of stage `k` -/
noncomputable def bsStageError (P : BsParams ℝ V) (f : V → ℝ → V) (x : V) (t dt : ℝ) (k : ℕ) : ℝ :=
  (P.checker.error x (f x t) (extrapolated f k k x t dt - extrapolated f (k - 1) k x t dt) dt).2

theorem Evaluates.defined {sys : Sys ℝ V W} {f : V → ℝ → V} (hs : Evaluates sys f) : sys.Defined := by
  intro x t w h
  obtain ⟨w', e⟩ := hs x t w
  rw [e] at h
  cases h

/-- One try: the step is too long, or it is made with an order `k` chosen by the loop over the stages. -/
theorem bsTry1_evaluates (P : BsParams ℝ V) (resized : Bool) {sys : Sys ℝ V W} {f : V → ℝ → V} (hs : Evaluates sys f) (n : ℕ) (t dt : ℝ)
    (s : BsState ℝ V W) (hv : s.ctl.Valid) : ∃ r s', bsTry1 P resized sys (.user n) t dt s = .ok r s' ∧ s'.ctl.Valid ∧
      ((bsTooLong P dt = true ∧ r = ⟨false, t, P.maxDt⟩ ∧ s'.heap.state (.user n) = s.heap.state (.user n)) ∨
       (bsTooLong P dt = false ∧ ∃ c b k, 1 ≤ k ∧ k ≤ 8 ∧ r = bsResult P c b t dt ∧
          s'.heap.state (.user n) = (if b.reject then s.heap.state (.user n) else extrapolated f k k (s.heap.state (.user n)) t dt) ∧
          LoopEnd bsRules P.ops c dt (fun e => ∃ j, 1 ≤ j ∧ j ≤ 8 ∧ e = bsStageError P f (s.heap.state (.user n)) t dt j) k
            (bsStageError P f (s.heap.state (.user n)) t dt k) b)) := by
  have hd := hs.defined
  obtain ⟨w, hw⟩ := hs (s.heap.state (.user n)) t s.heap.world
  set x := s.heap.state (.user n) with hx
  have e : onHeap (callSys sys (.user n) bsDxdt t) s = .ok () ⟨s.ctl, s.heap.put bsDxdt (f x t) w⟩ := onHeap_ok (by unfold callSys; rw [← hx, hw])
  set h0 := s.heap.put bsDxdt (f x t) w with hh0
  have hx0 : h0.state (.user n) = x := by rw [hh0, Heap.put_state_apply, if_neg (by simp [bsDxdt])]
  have hd0 : h0.state bsDxdt = f x t := by rw [hh0, Heap.put_state_apply, if_pos rfl]
  have hA : BsApart (.user n) bsDxdt bsXnew := ⟨by simp [Loc.ownedBy], by simp [bsDxdt, Loc.ownedBy], by simp [bsXnew, Loc.ownedBy],
    by simp [bsXnew], by simp [bsDxdt, bsXnew], by simp [bsErr], by simp [bsDxdt, bsErr], by simp [bsXnew, bsErr]⟩
  have hD : ∀ k w, midpointStep (interval k) sys (h0.state (.user n)) (h0.state bsDxdt) t dt w = .div → False := by
    intro k w h
    rw [hx0, hd0] at h
    obtain ⟨w', e⟩ := midpointStep_value hs (interval k) (by unfold interval; omega) x t dt w
    rw [e] at h
    cases h
  have hc := bsPrepare_valid P resized dt s.ctl hv
  have hdone : ∀ k e s', BsDone P sys (.user n) bsDxdt bsXnew t dt h0 k e s' →
      s'.heap.state bsXnew = extrapolated f k k x t dt ∧ e = bsStageError P f x t dt k := by
    rintro k e s' ⟨r, d1, d2, d3⟩
    rw [hx0, hd0] at d1 d3
    obtain ⟨w', e'⟩ := extrapolationErrStep_value hs k x t dt h0.world
    rw [e'] at d1
    injection d1 with d1
    subst d1
    exact ⟨d2, d3⟩
  have key := bsTry4_sat (D := False) P resized sys (.user n) bsDxdt t bsXnew dt ⟨s.ctl, h0⟩ hv (fun e => ∃ j, 1 ≤ j ∧ j ≤ 8 ∧ e = bsStageError P f x t dt j)
    (BsInv sys (.user n) bsDxdt bsXnew t dt h0 (bsPrepare P resized dt s.ctl)) (BsDone P sys (.user n) bsDxdt bsXnew t dt h0)
    (BsThrown sys (.user n) bsDxdt bsXnew t dt h0 (bsPrepare P resized dt s.ctl)) (bsStage0_sat_of sys t dt h0 _ hA hd hD _ rfl rfl)
    (fun k s' h1 h2 hI => (bsStage_sat_of P sys t dt h0 _ hA hd hD k h1 h2 s' hI).mono
      (fun e s' h => ⟨h.1, h.2, k, h1, h2, (hdone k e s' h.2).2⟩) (fun _ _ h => h) id)
  unfold bsTry1
  rw [M.bind_ok e]
  unfold bsTry2
  cases hr : bsTry4 P resized sys (.user n) bsDxdt t bsXnew dt ⟨s.ctl, h0⟩ with
  | ub => rw [hr] at key; exact key.elim
  | div => rw [hr] at key; exact key.elim
  | err e s' =>
    rw [hr] at key
    obtain ⟨-, -, k, h3⟩ := key
    rw [hx0, hd0] at h3
    obtain ⟨ys, w', e', -⟩ := extrapolationResults_value hs k x t dt h0.world
    unfold extrapolationStep at h3
    rw [M.bind_ok e'] at h3
    cases h3
  | ok r s' =>
    rw [hr] at key
    rw [M.bind_ok hr]
    rcases key with ⟨hl, rfl, rfl⟩ | ⟨hl, b, k, e, s1, rfl, rfl, ⟨-, hF, -⟩, hdn, -, hL⟩
    · exact ⟨_, _, rfl, hv, .inl ⟨hl, rfl, hx0⟩⟩
    · obtain ⟨d1, rfl⟩ := hdone k e s1 hdn
      have hk8 : k ≤ 8 := by
        have h2 : k ≤ (bsPrepare P resized dt s.ctl).kopt + 1 := hL.k2
        have := hc.2.1
        omega
      have hval := bsNewCtl_valid P (bsPrepare P resized dt s.ctl) b dt hL.lo hL.hi
      cases hb : b.reject with
      | true =>
        have hsucc : ¬ (bsResult P (bsPrepare P resized dt s.ctl) b t dt).success = true := by show ¬ (!b.reject) = true; rw [hb]; simp
        rw [if_neg hsucc]
        refine ⟨_, _, rfl, hval, .inr ⟨hl, _, b, k, hL.k1, hk8, rfl, ?_, hL⟩⟩
        rw [hb, if_pos rfl]
        exact (hF (.user n) hA.inp_out hA.inp_err hA.inp_owner).trans hx0
      | false =>
        have hsucc : (bsResult P (bsPrepare P resized dt s.ctl) b t dt).success = true := by show (!b.reject) = true; rw [hb]; rfl
        rw [if_pos hsucc]
        refine ⟨_, _, rfl, hval, .inr ⟨hl, _, b, k, hL.k1, hk8, rfl, ?_, hL⟩⟩
        rw [hb, if_neg (by simp)]
        show (s1.heap.set (.user n) (s1.heap.state bsXnew)).state (.user n) = _
        rw [Heap.set_state_self]
        exact d1

end Verif
