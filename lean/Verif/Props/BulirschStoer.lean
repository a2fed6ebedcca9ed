import Verif.Lemmas.BulirschStoerStep
import Verif.Props.InPlace

/-!
# C23: `bulirsch_stoer` stays inside its tables, and a try means what `extrapolation_stepper` computes
-/

namespace Verif
set_option linter.unusedSectionVars false
variable {K V W : Type} [Add K] [Sub K] [Mul K] [Div K] [Neg K] [IntCast K] [StateOps K V]

theorem BsCtl.reset_valid (c : BsCtl K) : c.reset.Valid := ⟨by show 2 ≤ 4; omega, by show 4 ≤ 7; omega, fun _ => rfl⟩

theorem bsPrepare_valid (P : BsParams K V) (resized : Bool) (dt : K) (c : BsCtl K) (h : c.Valid) : (bsPrepare P resized dt c).Valid := by
  unfold bsPrepare
  split
  · exact c.reset_valid
  · exact h

/-- `try_step( sys , in , dxdt , t , out , dt )`, for any invariant of its stages -/
theorem bsTry4_sat (P : BsParams K V) (resized : Bool) (sys : Sys K V W) (inp dxdt : Loc) (t : K) (out : Loc) (dt : K) (s : BsState K V W)
    (hv : s.ctl.Valid) {D : Prop} (PE : K → Prop) (I : ℕ → BsState K V W → Prop) (A : ℕ → K → BsState K V W → Prop) (X : Err → BsState K V W → Prop)
    (h0 : (onHeap (midpointImpl (interval 0) sys inp dxdt t out dt) ⟨bsPrepare P resized dt s.ctl, s.heap⟩).Sat (fun _ s' => I 1 s') X D)
    (hs : ∀ k s', 1 ≤ k → k ≤ 8 → I k s' → (bsStage P sys inp dxdt t out dt k s').Sat (fun e s' => I (k + 1) s' ∧ A k e s' ∧ PE e) X D) :
    (bsTry4 P resized sys inp dxdt t out dt s).Sat
      (fun r s' => (bsTooLong P dt = true ∧ r = ⟨false, t, P.maxDt⟩ ∧ s' = s) ∨
        (bsTooLong P dt = false ∧ ∃ b k e s1, r = bsResult P (bsPrepare P resized dt s.ctl) b t dt ∧
          s' = ⟨bsNewCtl P (bsPrepare P resized dt s.ctl) b dt, s1.heap⟩ ∧ I (k + 1) s1 ∧ A k e s1 ∧ PE e ∧
          LoopEnd bsRules P.ops (bsPrepare P resized dt s.ctl) dt PE k e b)) X D := by
  have hc := bsPrepare_valid P resized dt s.ctl hv
  unfold bsTry4
  split
  · rename_i hl
    exact Or.inl ⟨hl, rfl, rfl⟩
  · rename_i hl
    rw [M.bind_ok (m := M.get) (w' := s) (a := s) rfl]
    unfold bsTryBody
    rw [M.bind_ok (m := setCtl (bsPrepare P resized dt s.ctl)) (w' := ⟨bsPrepare P resized dt s.ctl, s.heap⟩) (a := ()) rfl]
    generalize bsPrepare P resized dt s.ctl = c at h0 hc ⊢
    refine Res.Sat.bind ?_
    rw [show c.kopt + 2 = (c.kopt + 1) + 1 by omega, bsLoop, if_pos rfl]
    refine Res.Sat.bind (h0.mono (fun _ s1 h1 => ?_) (fun _ _ h => h) (fun h => h))
    refine (bsLoop_sat bsRules P.ops c dt (fun _ => Nat.le_succ _) hc.1 hc.2.1 (fun h => by have := hc.2.2 h; omega) PE I A X
      (fun k s' h1 h2 hI => hs k s' h1 (by have := hc.2.1; omega) hI) (c.kopt + 1) 1 _ _ s1 le_rfl (by omega) (by omega) h1
      (fun j hj1 hj2 => absurd hj2 (by omega))).mono ?_ (fun _ _ h => h) (fun h => h)
    rintro r s2 ⟨b, k, e, rfl, hI, hA, hP, hL⟩
    exact Or.inr ⟨Bool.eq_false_iff.mpr hl, b, k, e, s2, rfl, rfl, hI, hA, hP, hL⟩

theorem bsNewCtl_valid (P : BsParams K V) (c : BsCtl K) (b : BsBreak K) (dt : K) (h1 : 2 ≤ b.kopt) (h2 : b.kopt ≤ 7) : (bsNewCtl P c b dt).Valid :=
  ⟨h1, h2, fun h => nomatch h⟩

/-- Whatever the arguments, and however they alias, the tables are not left and the order stays in its range. -/
theorem bsTry4_valid (P : BsParams K V) (resized : Bool) {sys : Sys K V W} (hs : sys.Defined) (inp dxdt : Loc) (t : K) (out : Loc) (dt : K)
    (s : BsState K V W) (hv : s.ctl.Valid) :
    (bsTry4 P resized sys inp dxdt t out dt s).Sat (fun _ s' => s'.ctl.Valid) (fun _ s' => s'.ctl.Valid) True := by
  have hc := bsPrepare_valid P resized dt s.ctl hv
  refine (bsTry4_sat P resized sys inp dxdt t out dt s hv (fun _ => True) (fun _ s' => s'.ctl = bsPrepare P resized dt s.ctl) (fun _ _ _ => True)
    (fun _ s' => s'.ctl = bsPrepare P resized dt s.ctl) ?_ ?_).mono ?_ ?_ (fun h => h)
  · exact onHeap_keeps rfl (midpointImpl_sat hs _ _ _ _ _ _ _)
  · intro k s' h1 h2 hI
    exact (bsStage_keeps P hs inp dxdt t out dt k h1 h2 _ s' hI).mono (fun _ _ h => ⟨h, trivial, trivial⟩) (fun _ _ h => h) (fun h => h)
  · rintro r s' (⟨-, -, rfl⟩ | ⟨-, b, k, e, s1, -, rfl, -, -, -, hL⟩)
    · exact hv
    · exact bsNewCtl_valid P _ b dt hL.lo hL.hi
  · intro e s' h
    show s'.ctl.Valid
    rw [h]
    exact hc

theorem bsTry2_valid (P : BsParams K V) (resized : Bool) {sys : Sys K V W} (hs : sys.Defined) (x dxdt : Loc) (t dt : K)
    (s : BsState K V W) (hv : s.ctl.Valid) :
    (bsTry2 P resized sys x dxdt t dt s).Sat (fun _ s' => s'.ctl.Valid) (fun _ s' => s'.ctl.Valid) True := by
  unfold bsTry2
  refine Res.Sat.bind ((bsTry4_valid P resized hs x dxdt t bsXnew dt s hv).mono (fun r s' h => ?_) (fun _ _ h => h) (fun h => h))
  by_cases hr : r.success = true
  · rw [if_pos hr]; exact h
  · rw [if_neg hr]; exact h

theorem callSys_valid {sys : Sys K V W} (hs : sys.Defined) (a b : Loc) (t : K) (s : BsState K V W) (hv : s.ctl.Valid) :
    (onHeap (callSys sys a b t) s).Sat (fun _ s' => s'.ctl.Valid) (fun _ s' => s'.ctl.Valid) True :=
  (onHeap_keeps rfl (callSys_sat hs _ _ _ _)).mono (fun _ s' h => by show s'.ctl.Valid; rw [h]; exact hv)
    (fun _ s' h => by show s'.ctl.Valid; rw [h]; exact hv) (fun h => h)

theorem BsCall.run_valid (P : BsParams K V) (call : BsCall K V W) (hd : call.Defined) (s : BsState K V W) (hv : s.ctl.Valid) :
    (call.run P s).Sat (fun _ s' => s'.ctl.Valid) (fun _ s' => s'.ctl.Valid) True := by
  cases call with
  | try1 resized sys x t dt =>
    refine Res.Sat.bind (Res.Sat.mono (Q := fun _ s' => s'.ctl.Valid) ?_ (fun _ _ h => h) (fun _ _ h => h) (fun h => h))
    unfold bsTry1
    exact Res.Sat.bind ((callSys_valid hd _ _ _ _ hv).mono (fun _ s' h => bsTry2_valid P resized hd _ _ _ _ s' h) (fun _ _ h => h) (fun h => h))
  | try2 resized sys x dxdt t dt => exact Res.Sat.bind (bsTry2_valid P resized hd x dxdt t dt s hv)
  | try3 resized sys inp t out dt =>
    refine Res.Sat.bind (Res.Sat.mono (Q := fun _ s' => s'.ctl.Valid) ?_ (fun _ _ h => h) (fun _ _ h => h) (fun h => h))
    unfold bsTry3
    exact Res.Sat.bind ((callSys_valid hd _ _ _ _ hv).mono (fun _ s' h => bsTry4_valid P resized hd _ _ _ _ _ s' h) (fun _ _ h => h) (fun h => h))
  | try4 resized sys inp dxdt t out dt => exact Res.Sat.bind (bsTry4_valid P resized hd inp dxdt t out dt s hv)
  | reset => exact s.ctl.reset_valid
  | user f => exact hv

/-- C23, tables: after construction, whatever calls are made (any system functions, error checkers, number types including NaN, step sizes,
resizing, aliasing of the arguments, exceptions, resets), no table access is out of bounds, and the order lies in `2 .. 7`. -/
theorem bulirsch_stoer_in_bounds (P : BsParams K V) (calls : List (BsCall K V W)) (hd : ∀ c ∈ calls, c.Defined) (dtLast : K) (h : Heap K V W) :
    runBsCalls P calls ⟨BsCtl.construct dtLast, h⟩ ≠ .ub ∧
      ∀ s, runBsCalls P calls ⟨BsCtl.construct dtLast, h⟩ = .ok () s → s.ctl.Valid := by
  have key : ∀ (calls : List (BsCall K V W)), (∀ c ∈ calls, c.Defined) → ∀ s : BsState K V W, s.ctl.Valid →
      (runBsCalls P calls s).Sat (fun _ s' => s'.ctl.Valid) (fun _ _ => True) True := by
    intro calls
    induction calls with
    | nil => intro _ s hs; exact hs
    | cons c cs ih =>
      intro hd s hs
      rw [runBsCalls]
      refine Res.Sat.bind ?_
      have h1 := c.run_valid P (hd c (by simp)) s hs
      have : (orElse (c.run P) () s).Sat (fun _ s' => s'.ctl.Valid) (fun _ _ => True) True := by
        unfold orElse
        cases hc : c.run P s with
        | ok a s' => rw [hc] at h1; exact h1
        | err e s' => rw [hc] at h1; exact h1
        | ub => rw [hc] at h1; exact h1
        | div => trivial
      exact this.mono (fun _ s' h => ih (fun c' hc' => hd c' (by simp [hc'])) s' h) (fun _ _ _ => trivial) (fun h => h)
  have := key calls hd ⟨BsCtl.construct dtLast, h⟩ (BsCtl.reset_valid ⟨0, true, false, dtLast⟩)
  constructor
  · intro hu; rw [hu] at this; exact this
  · intro s hs; exact this.of_ok hs

/-- C23, values: a try of `try_step( sys , in , dxdt , t , out , dt )` whose output is neither the input nor the derivative. -/
theorem bulirsch_stoer_try4 (P : BsParams K V) (resized : Bool) {sys : Sys K V W} (hs : sys.Defined) (inp dxdt : Loc) (t : K) (out : Loc) (dt : K)
    (hA : BsApart inp dxdt out) (s : BsState K V W) (hv : s.ctl.Valid) :
    (bsTry4 P resized sys inp dxdt t out dt s).Sat
      (fun r s' => BsTried P sys (s.heap.state inp) (s.heap.state dxdt) t dt s.heap.world r (s'.heap.state out) s'.heap.world ∧
        BsFrame out s.heap s'.heap ∧ s'.ctl.Valid)
      (fun e s' => BsFrame out s.heap s'.heap ∧ s'.ctl.Valid ∧
        ∃ k, extrapolationStep k sys (s.heap.state inp) (s.heap.state dxdt) t dt s.heap.world = .err e s'.heap.world) True := by
  have hc := bsPrepare_valid P resized dt s.ctl hv
  refine (bsTry4_sat P resized sys inp dxdt t out dt s hv (fun _ => True) (BsInv sys inp dxdt out t dt s.heap (bsPrepare P resized dt s.ctl))
    (BsDone P sys inp dxdt out t dt s.heap) (BsThrown sys inp dxdt out t dt s.heap (bsPrepare P resized dt s.ctl)) ?_ ?_).mono ?_ ?_ (fun h => h)
  · exact bsStage0_sat sys t dt s.heap _ hA hs _ rfl rfl
  · intro k s' h1 h2 hI
    exact (bsStage_sat P sys t dt s.heap _ hA hs k h1 h2 s' hI).mono (fun _ _ h => ⟨h.1, h.2, trivial⟩) (fun _ _ h => h) (fun h => h)
  · rintro r s' (⟨hl, rfl, rfl⟩ | ⟨-, b, k, e, s1, rfl, rfl, ⟨-, hF, -⟩, hD, -, hL⟩)
    · exact ⟨Or.inr ⟨rfl, rfl, Or.inr ⟨hl, rfl, rfl⟩⟩, fun l _ _ _ => rfl, hv⟩
    · refine ⟨?_, hF, bsNewCtl_valid P _ b dt hL.lo hL.hi⟩
      obtain ⟨⟨y, er⟩, d1, d2, d3⟩ := hD
      have hk : k ≤ 8 := by have := hL.k2; have := hc.2.1; omega
      cases hb : b.reject with
      | true =>
        refine Or.inr ⟨by show (!b.reject) = false; rw [hb]; rfl, by show (if b.reject = true then t else t + dt) = t; rw [hb]; rfl, Or.inl ?_⟩
        exact ⟨k, y, er, hL.k1, hk, d1, by rw [← d3]; exact (hL.rej hb).1⟩
      | false =>
        refine Or.inl ⟨by show (!b.reject) = true; rw [hb]; rfl, by show (if b.reject = true then t else t + dt) = t + dt; rw [hb]; rfl, ?_⟩
        refine ⟨k, er, hL.k1, hk, ?_, by rw [← d3]; exact (hL.acc hb).1⟩
        show _ = Res.ok (s1.heap.state out, er) _
        rw [d2]
        exact d1
  · rintro e s' ⟨h1, h2, h3⟩
    refine ⟨h2, ?_, h3⟩
    show s'.ctl.Valid
    rw [h1]
    exact hc

/-- C23, values: the in-place `try_step( sys , x , dxdt , t , dt )`.  The state changes only on success; when the system function throws,
nothing the user can see has changed. -/
theorem bulirsch_stoer_try2 (P : BsParams K V) (resized : Bool) {sys : Sys K V W} (hs : sys.Defined) (x dxdt : Loc) (t dt : K)
    (hx : ¬ x.ownedBy [.midp, .extrap, .ctrl]) (hd : ¬ dxdt.ownedBy [.midp, .extrap]) (hd1 : dxdt ≠ bsXnew) (hd2 : dxdt ≠ bsErr)
    (s : BsState K V W) (hv : s.ctl.Valid) :
    (bsTry2 P resized sys x dxdt t dt s).Sat
      (fun r s' => (∃ y, BsTried P sys (s.heap.state x) (s.heap.state dxdt) t dt s.heap.world r y s'.heap.world ∧
          s'.heap.state x = if r.success then y else s.heap.state x) ∧
        (∀ n, .user n ≠ x → s'.heap.state (.user n) = s.heap.state (.user n)) ∧ s'.ctl.Valid)
      (fun e s' => (∀ n, s'.heap.state (.user n) = s.heap.state (.user n)) ∧ s'.ctl.Valid ∧
        ∃ k, extrapolationStep k sys (s.heap.state x) (s.heap.state dxdt) t dt s.heap.world = .err e s'.heap.world) True := by
  have hxp : ∀ o i, o ∈ [Owner.midp, .extrap, .ctrl] → x ≠ .priv o i := by
    rintro o i ho rfl
    exact hx ho
  have hx' : ¬ x.ownedBy [.midp, .extrap] := by
    intro h
    cases x with
    | user n => exact h
    | priv o i => exact hx (by simp only [Loc.ownedBy, List.mem_cons] at h ⊢; rcases h with h | h | h <;> simp_all)
  have hA : BsApart x dxdt bsXnew :=
    ⟨hx', hd, by simp [bsXnew, Loc.ownedBy], hxp _ _ (by simp), hd1, hxp _ _ (by simp), hd2, by simp [bsXnew, bsErr]⟩
  have hu : ∀ n, Loc.user n ≠ bsXnew ∧ Loc.user n ≠ bsErr ∧ ¬ (Loc.user n).ownedBy [.midp, .extrap] :=
    fun n => ⟨by simp [bsXnew], by simp [bsErr], by simp [Loc.ownedBy]⟩
  unfold bsTry2
  refine Res.Sat.bind ((bulirsch_stoer_try4 P resized hs x dxdt t bsXnew dt hA s hv).mono ?_ ?_ (fun h => h))
  · rintro r s' ⟨hT, hF, hV⟩
    by_cases hr : r.success = true
    · rw [if_pos hr]
      refine ⟨⟨s'.heap.state bsXnew, hT, ?_⟩, ?_, hV⟩
      · show (s'.heap.set x (s'.heap.state bsXnew)).state x = _
        rw [Heap.set_state_self, if_pos hr]
      · intro n hn
        show (s'.heap.set x (s'.heap.state bsXnew)).state (.user n) = _
        rw [Heap.set_state_ne _ _ hn]
        exact hF _ (hu n).1 (hu n).2.1 (hu n).2.2
    · rw [if_neg hr]
      refine ⟨⟨s'.heap.state bsXnew, hT, ?_⟩, ?_, hV⟩
      · show s'.heap.state x = _
        rw [if_neg hr]
        exact hF x hA.inp_out hA.inp_err hx'
      · intro n _
        exact hF _ (hu n).1 (hu n).2.1 (hu n).2.2
  · rintro e s' ⟨hF, hV, hk⟩
    exact ⟨fun n => hF _ (hu n).1 (hu n).2.1 (hu n).2.2, hV, hk⟩

/-- C23, values: `try_step( sys , x , t , dt )`: the derivative `d` is `sys( x , t )`. -/
theorem bulirsch_stoer_try1 (P : BsParams K V) (resized : Bool) {sys : Sys K V W} (hs : sys.Defined) (n : ℕ) (t dt : K)
    (s : BsState K V W) (hv : s.ctl.Valid) :
    (bsTry1 P resized sys (.user n) t dt s).Sat
      (fun r s' => (∃ d w y, sys (s.heap.state (.user n)) t s.heap.world = .ok d w ∧
          BsTried P sys (s.heap.state (.user n)) d t dt w r y s'.heap.world ∧
          s'.heap.state (.user n) = if r.success then y else s.heap.state (.user n)) ∧
        (∀ m, m ≠ n → s'.heap.state (.user m) = s.heap.state (.user m)) ∧ s'.ctl.Valid)
      (fun _ s' => (∀ m, s'.heap.state (.user m) = s.heap.state (.user m)) ∧ s'.ctl.Valid) True := by
  unfold bsTry1
  refine Res.Sat.bind ?_
  have hne := hs (s.heap.state (.user n)) t s.heap.world
  cases hr : sys (s.heap.state (.user n)) t s.heap.world with
  | ok d w =>
    have e : onHeap (callSys sys (.user n) bsDxdt t) s = .ok () ⟨s.ctl, s.heap.put bsDxdt d w⟩ := onHeap_ok (by unfold callSys; rw [hr])
    rw [e]
    have h := bulirsch_stoer_try2 P resized hs (.user n) bsDxdt t dt (by simp [Loc.ownedBy]) (by simp [bsDxdt, Loc.ownedBy]) (by simp [bsDxdt, bsXnew])
      (by simp [bsDxdt, bsErr]) ⟨s.ctl, s.heap.put bsDxdt d w⟩ hv
    have pu : ∀ m, (s.heap.put bsDxdt d w).state (.user m) = s.heap.state (.user m) := by
      intro m
      rw [Heap.put_state_apply, if_neg (by simp [bsDxdt])]
    have pd : (s.heap.put bsDxdt d w).state bsDxdt = d := by rw [Heap.put_state_apply, if_pos rfl]
    simp only [pu, pd] at h
    refine h.mono ?_ ?_ (fun h => h)
    · rintro r s' ⟨⟨y, h1, h2⟩, h3, h4⟩
      exact ⟨⟨d, w, y, rfl, h1, h2⟩, fun m hm => h3 m (by simpa using hm), h4⟩
    · rintro e s' ⟨h1, h2, -⟩
      exact ⟨h1, h2⟩
  | err e w =>
    have e1 : onHeap (callSys sys (.user n) bsDxdt t) s = .err e ⟨s.ctl, s.heap.withWorld w⟩ := onHeap_err (by unfold callSys; rw [hr])
    rw [e1]
    exact ⟨fun m => rfl, hv⟩
  | ub => exact absurd hr hne
  | div =>
    have : onHeap (callSys sys (.user n) bsDxdt t) s = .div := by unfold onHeap callSys; rw [hr]
    rw [this]
    trivial

end Verif
