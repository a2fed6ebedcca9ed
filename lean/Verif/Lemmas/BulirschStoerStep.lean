import Verif.Spec.BulirschStoer
import Verif.Lemmas.BulirschStoer

/-!
# The stages of `bulirsch_stoer` are those of `extrapolation_stepper`
-/

namespace Verif
set_option linter.unusedSectionVars false
variable {K V W S : Type} [Add K] [Sub K] [Mul K] [Div K] [Neg K] [IntCast K] [StateOps K V]

/-! ## No undefined behaviour, whatever the aliasing -/

theorem callSys_sat {sys : Sys K V W} (hs : sys.Defined) (a b : Loc) (t : K) (h : Heap K V W) :
    (callSys sys a b t h).Sat (fun _ _ => True) (fun _ _ => True) True := by
  unfold callSys
  have := hs (h.state a) t h.world
  cases hr : sys (h.state a) t h.world <;> simp_all [Res.Sat]

theorem midpointLoop_sat {sys : Sys K V W} (hs : sys.Defined) (h h2 : K) :
    ∀ (n : ℕ) (th : K) (s : Heap K V W), (midpointLoop sys h h2 n th s).Sat (fun _ _ => True) (fun _ _ => True) True := by
  intro n
  induction n with
  | zero => intro th s; trivial
  | succ n ih =>
    intro th s
    rw [midpointLoop]
    refine Res.Sat.bind ?_
    show Res.Sat (.ok () _) _ _ _
    refine Res.Sat.bind ?_
    exact (callSys_sat hs _ _ _ _).mono (fun _ s' _ => ih _ s') (fun _ _ _ => trivial) (fun _ => trivial)

theorem midpointImpl_sat {sys : Sys K V W} (hs : sys.Defined) (m : ℕ) (inp dxdt : Loc) (t : K) (out : Loc) (dt : K) (s : Heap K V W) :
    (midpointImpl m sys inp dxdt t out dt s).Sat (fun _ _ => True) (fun _ _ => True) True := by
  unfold midpointImpl
  generalize (m + 65535) % 65536 = n
  refine Res.Sat.bind ?_
  show Res.Sat (.ok () _) _ _ _
  refine Res.Sat.bind ?_
  refine (callSys_sat hs _ _ _ _).mono (fun _ s' _ => ?_) (fun _ _ _ => trivial) (fun _ => trivial)
  refine Res.Sat.bind ?_
  show Res.Sat (.ok () _) _ _ _
  refine Res.Sat.bind ?_
  exact (midpointLoop_sat hs _ _ _ _ _).mono (fun _ s' _ => trivial) (fun _ _ _ => trivial) (fun _ => trivial)

theorem extrapolateLoop_sat (k : ℕ) : ∀ (n : ℕ) (s : Heap K V W), (extrapolateLoop k n s).Sat (fun _ _ => True) (fun _ _ => True) True := by
  intro n
  induction n with
  | zero => intro s; trivial
  | succ n ih =>
    intro s
    rw [extrapolateLoop]
    refine Res.Sat.bind ?_
    exact ih _

theorem extrapolate_sat (k : ℕ) (out : Loc) (s : Heap K V W) : (extrapolate k out s).Sat (fun _ _ => True) (fun _ _ => True) True := by
  unfold extrapolate
  refine Res.Sat.bind ?_
  exact (extrapolateLoop_sat k _ _).mono (fun _ _ _ => trivial) (fun _ _ _ => trivial) (fun _ => trivial)

theorem onHeap_sat {α : Type} {m : StepM K V W α} {Q : α → Heap K V W → Prop} {E : Err → Heap K V W → Prop} {D : Prop} {s : BsState K V W}
    (h : (m s.heap).Sat Q E D) :
    (onHeap m s).Sat (fun a s' => s'.ctl = s.ctl ∧ Q a s'.heap) (fun e s' => s'.ctl = s.ctl ∧ E e s'.heap) D := by
  unfold onHeap
  cases hm : m s.heap with
  | ok a h' => rw [hm] at h; exact ⟨rfl, h⟩
  | err a h' => rw [hm] at h; exact ⟨rfl, h⟩
  | ub => rw [hm] at h; exact h
  | div => rw [hm] at h; exact h

theorem onHeap_ok {α : Type} {m : StepM K V W α} {s : BsState K V W} {a : α} {h' : Heap K V W} (h : m s.heap = .ok a h') :
    onHeap m s = .ok a ⟨s.ctl, h'⟩ := by
  unfold onHeap; rw [h]

theorem onHeap_err {α : Type} {m : StepM K V W α} {s : BsState K V W} {e : Err} {h' : Heap K V W} (h : m s.heap = .err e h') :
    onHeap m s = .err e ⟨s.ctl, h'⟩ := by
  unfold onHeap; rw [h]

theorem onHeap_keeps {α : Type} {m : StepM K V W α} {s : BsState K V W} {c : BsCtl K} (hc : s.ctl = c)
    (h : (m s.heap).Sat (fun _ _ => True) (fun _ _ => True) True) :
    (onHeap m s).Sat (fun _ s' => s'.ctl = c) (fun _ s' => s'.ctl = c) True :=
  (onHeap_sat h).mono (fun _ _ h => h.1.trans hc) (fun _ _ h => h.1.trans hc) (fun h => h)

/-- A stage never has undefined behaviour and does not change the members for order and step size. -/
theorem bsStage_keeps (P : BsParams K V) {sys : Sys K V W} (hs : sys.Defined) (inp dxdt : Loc) (t : K) (out : Loc) (dt : K) (k : ℕ)
    (hk1 : 1 ≤ k) (hk2 : k ≤ 8) (c : BsCtl K) (s : BsState K V W) (hc : s.ctl = c) :
    (bsStage P sys inp dxdt t out dt k s).Sat (fun _ s' => s'.ctl = c) (fun _ s' => s'.ctl = c) True := by
  unfold bsStage
  rw [M.bind_ok (chk_ok (by omega) _)]
  refine Res.Sat.bind ((onHeap_keeps hc (midpointImpl_sat hs _ _ _ _ _ _ _)).mono (fun _ s1 h1 => ?_) (fun _ _ h => h) (fun h => h))
  refine Res.Sat.bind ((onHeap_keeps h1 (extrapolate_sat _ _ _)).mono (fun _ s2 h2 => ?_) (fun _ _ h => h) (fun h => h))
  exact h2

/-! ## Stages and `extrapolation_stepper` -/

theorem midpointResults_snoc (sys : Sys K V W) (x k1 : V) (t dt : K) : ∀ (n k : ℕ) (ys : ℕ → V),
    midpointResults sys x k1 t dt (n + 1) k ys =
      (midpointResults sys x k1 t dt n k ys >>= fun ys => midpointStep (interval (k + n)) sys x k1 t dt >>= fun y =>
        pure (Function.update ys (k + n) y)) := by
  intro n
  induction n with
  | zero => intro k ys; rw [midpointResults, midpointResults, pure_bind]; rfl
  | succ n ih =>
    intro k ys
    rw [midpointResults, midpointResults, bind_assoc]
    congr 1
    funext y
    rw [ih (k + 1), show k + 1 + n = k + (n + 1) by omega]

theorem extrapolationResults_succ (sys : Sys K V W) (x k1 : V) (t dt : K) (k : ℕ) :
    extrapolationResults (k + 1) sys x k1 t dt =
      (extrapolationResults k sys x k1 t dt >>= fun ys => midpointStep (interval (k + 1)) sys x k1 t dt >>= fun y =>
        pure (Function.update ys (k + 1) y)) := by
  unfold extrapolationResults
  rw [bind_assoc]
  congr 1
  funext y
  rw [midpointResults_snoc, show 1 + k = k + 1 by omega]

theorem leapFrog_ne_ub {sys : Sys K V W} (hs : sys.Defined) (h : K) :
    ∀ (n : ℕ) (th : K) (a b d : V) (w : W), leapFrog sys h n th a b d w ≠ .ub := by
  intro n
  induction n with
  | zero => intro th a b d w h; cases h
  | succ n ih =>
    intro th a b d w hb
    rw [leapFrog, M.bind_apply] at hb
    have := hs (lin [(lit 1, a), (lit 2 * h, d)]) (th + h) w
    cases hr : sys (lin [(lit 1, a), (lit 2 * h, d)]) (th + h) w with
    | ok v w' => rw [hr] at hb; exact ih _ _ _ _ _ hb
    | err e w' => rw [hr] at hb; cases hb
    | ub => exact this hr
    | div => rw [hr] at hb; cases hb

theorem midpointStep_ne_ub {sys : Sys K V W} (hs : sys.Defined) (m : ℕ) (x k1 : V) (t dt : K) (w : W) :
    midpointStep m sys x k1 t dt w ≠ .ub := by
  unfold midpointStep
  intro hb
  rw [M.bind_apply] at hb
  have := hs (lin [(lit 1, x), (dt / lit m, k1)]) (t + dt / lit m) w
  cases hr : sys (lin [(lit 1, x), (dt / lit m, k1)]) (t + dt / lit m) w with
  | ok v w' =>
    rw [hr] at hb
    dsimp only at hb
    rw [M.bind_apply] at hb
    have h2 := leapFrog_ne_ub hs (dt / lit m) (m - 1) (t + dt / lit m) x (lin [(lit 1, x), (dt / lit m, k1)]) v w'
    cases hl : leapFrog sys (dt / lit m) (m - 1) (t + dt / lit m) x (lin [(lit 1, x), (dt / lit m, k1)]) v w' with
    | ok _ _ => rw [hl] at hb; cases hb
    | err _ _ => rw [hl] at hb; cases hb
    | ub => exact h2 hl
    | div => rw [hl] at hb; cases hb
  | err e w' => rw [hr] at hb; cases hb
  | ub => exact this hr
  | div => rw [hr] at hb; cases hb

section Stage
variable (P : BsParams K V) (sys : Sys K V W) (inp dxdt out : Loc) (t dt : K) (h0 : Heap K V W) (c : BsCtl K)

/-- before stage `k ≥ 1`: the midpoint results `0 .. k-1` have been computed and extrapolated -/
def BsInv (k : ℕ) (s : BsState K V W) : Prop :=
  s.ctl = c ∧ BsFrame out h0 s.heap ∧
    ∃ ys, extrapolationResults (k - 1) sys (h0.state inp) (h0.state dxdt) t dt h0.world = .ok ys s.heap.world ∧
      s.heap.state out = neville (exCoeff (K := K)) ys (k - 1) (k - 1) ∧
      ∀ i, i < k - 1 → s.heap.state (exTable i) = neville (exCoeff (K := K)) ys (k - 1 - (i + 1)) (k - 1)

/-- after stage `k` with the result `e`: the output is the value of `extrapolation_stepper< 2k+2 >`, and `e` is the error checker's value for
its error estimate -/
def BsDone (k : ℕ) (e : K) (s : BsState K V W) : Prop :=
  ∃ r, extrapolationErrStep k sys (h0.state inp) (h0.state dxdt) t dt h0.world = .ok r s.heap.world ∧ s.heap.state out = r.1 ∧
    e = (P.checker.error (h0.state inp) (h0.state dxdt) r.2 dt).2

/-- after an exception in a stage: it is the exception of `extrapolation_stepper< 2k+2 >` for some `k` -/
def BsThrown (e : Err) (s : BsState K V W) : Prop :=
  s.ctl = c ∧ BsFrame out h0 s.heap ∧
    ∃ k, extrapolationStep k sys (h0.state inp) (h0.state dxdt) t dt h0.world = .err e s.heap.world

variable {inp dxdt out}

theorem exTable_owned (i : ℕ) : (exTable i).ownedBy [.midp, .extrap] := by simp [exTable, Loc.ownedBy]

theorem BsApart.out_table (hA : BsApart inp dxdt out) (i : ℕ) : out ≠ exTable i := fun h => hA.out_owner (h ▸ exTable_owned i)

theorem bsErr_owner : ¬ bsErr.ownedBy [.midp, .extrap] := by simp [bsErr, Loc.ownedBy]

/-- stage 0 -/
theorem bsStage0_sat_of (hA : BsApart inp dxdt out) (hs : sys.Defined) {D : Prop}
    (hD : ∀ k w, midpointStep (interval k) sys (h0.state inp) (h0.state dxdt) t dt w = .div → D) (s : BsState K V W) (hc : s.ctl = c) (hh : s.heap = h0) :
    (onHeap (midpointImpl (interval 0) sys inp dxdt t out dt) s).Sat (fun _ s' => BsInv sys inp dxdt out t dt h0 c 1 s')
      (BsThrown sys inp dxdt out t dt h0 c) D := by
  subst hh
  have hm := midpoint_implements (interval 0) (by unfold interval; omega) (by unfold interval; omega) sys inp dxdt out t dt s.heap
    (not_midp hA.inp_owner)
  unfold Implements at hm
  have hne := midpointStep_ne_ub hs (interval 0) (s.heap.state inp) (s.heap.state dxdt) t dt s.heap.world
  cases hr : midpointStep (interval 0) sys (s.heap.state inp) (s.heap.state dxdt) t dt s.heap.world with
  | ok y w =>
    rw [hr] at hm
    obtain ⟨h', e1, e2, e3⟩ := hm
    rw [onHeap_ok e1]
    refine ⟨hc, ?_, fun _ => y, ?_, ?_, fun i hi => absurd hi (by omega)⟩
    · intro l h1 h2 h3
      show h'.state l = s.heap.state l
      rw [(e3 l (not_midp h3)).1]
      exact Heap.set_state_ne _ _ h1
    · show extrapolationResults 0 sys (s.heap.state inp) (s.heap.state dxdt) t dt s.heap.world = .ok (fun _ => y) h'.world
      unfold extrapolationResults
      rw [M.bind_ok hr, e2]
      rfl
    · show h'.state out = _
      rw [(e3 out (not_midp hA.out_owner)).1]
      simp [neville]
  | err e w =>
    rw [hr] at hm
    obtain ⟨h', e1, e2, e3⟩ := hm
    rw [onHeap_err e1]
    refine ⟨hc, ?_, 0, ?_⟩
    · intro l h1 h2 h3
      exact (e3 l (not_midp h3) (by simp)).1
    · show extrapolationStep 0 sys (s.heap.state inp) (s.heap.state dxdt) t dt s.heap.world = .err e h'.world
      unfold extrapolationStep extrapolationResults
      rw [bind_assoc, M.bind_err hr, e2]
  | ub => exact absurd hr hne
  | div =>
    rw [hr] at hm
    unfold onHeap
    rw [show midpointImpl (interval 0) sys inp dxdt t out dt s.heap = .div from hm]
    exact hD 0 _ hr

theorem bsStage0_sat (hA : BsApart inp dxdt out) (hs : sys.Defined) (s : BsState K V W) (hc : s.ctl = c) (hh : s.heap = h0) :
    (onHeap (midpointImpl (interval 0) sys inp dxdt t out dt) s).Sat (fun _ s' => BsInv sys inp dxdt out t dt h0 c 1 s')
      (BsThrown sys inp dxdt out t dt h0 c) True :=
  bsStage0_sat_of sys t dt h0 c hA hs (fun _ _ _ => trivial) s hc hh

theorem bsStage_sat_of (hA : BsApart inp dxdt out) (hs : sys.Defined) {D : Prop}
    (hD : ∀ k w, midpointStep (interval k) sys (h0.state inp) (h0.state dxdt) t dt w = .div → D) (k : ℕ) (hk1 : 1 ≤ k) (hk2 : k ≤ 8) (s : BsState K V W)
    (hI : BsInv sys inp dxdt out t dt h0 c k s) :
    (bsStage P sys inp dxdt t out dt k s).Sat
      (fun e s' => BsInv sys inp dxdt out t dt h0 c (k + 1) s' ∧ BsDone P sys inp dxdt out t dt h0 k e s')
      (BsThrown sys inp dxdt out t dt h0 c) D := by
  obtain ⟨hc, hF, ys, hys, hout, htab⟩ := hI
  have hinp : s.heap.state inp = h0.state inp := hF inp hA.inp_out hA.inp_err hA.inp_owner
  have hdxdt : s.heap.state dxdt = h0.state dxdt := hF dxdt hA.dxdt_out hA.dxdt_err hA.dxdt_owner
  obtain ⟨j, rfl⟩ : ∃ j, k = j + 1 := ⟨k - 1, by omega⟩
  simp only [Nat.add_sub_cancel] at hys hout htab
  unfold bsStage
  rw [M.bind_ok (chk_ok (by omega) _)]
  have hm := midpoint_implements (interval (j + 1)) (by unfold interval; omega) (by unfold interval; omega) sys inp dxdt (exTable (j + 1 - 1)) t dt s.heap
    (not_midp hA.inp_owner)
  rw [hinp, hdxdt] at hm
  unfold Implements at hm
  have hne := midpointStep_ne_ub hs (interval (j + 1)) (h0.state inp) (h0.state dxdt) t dt s.heap.world
  cases hr : midpointStep (interval (j + 1)) sys (h0.state inp) (h0.state dxdt) t dt s.heap.world with
  | err e w =>
    rw [hr] at hm
    obtain ⟨h', e1, e2, e3⟩ := hm
    rw [M.bind_err (onHeap_err e1)]
    refine ⟨hc, ?_, j + 1, ?_⟩
    · intro l h1 h2 h3
      exact (e3 l (not_midp h3) (by simp)).1.trans (hF l h1 h2 h3)
    · show extrapolationStep (j + 1) sys (h0.state inp) (h0.state dxdt) t dt h0.world = .err e h'.world
      unfold extrapolationStep
      rw [extrapolationResults_succ, bind_assoc, M.bind_ok hys, bind_assoc, M.bind_err hr, e2]
  | ub => exact absurd hr hne
  | div =>
    rw [hr] at hm
    have : onHeap (midpointImpl (interval (j + 1)) sys inp dxdt t (exTable (j + 1 - 1)) dt) s = .div := by
      unfold onHeap
      rw [show midpointImpl (interval (j + 1)) sys inp dxdt t (exTable (j + 1 - 1)) dt s.heap = .div from hm]
    rw [M.bind_div this]
    exact hD _ _ hr
  | ok y w =>
    rw [hr] at hm
    obtain ⟨h1, e1, e2, e3⟩ := hm
    rw [M.bind_ok (onHeap_ok e1)]
    have f1 : ∀ l, ¬ l.ownedBy [.midp] → l ≠ exTable j → h1.state l = s.heap.state l := by
      intro l hl hne
      rw [(e3 l hl).1]
      exact Heap.set_state_ne _ _ hne
    have f2 : h1.state (exTable j) = y := by
      rw [(e3 (exTable j) (exTable_not_midp _)).1]; simp
    have upd : ∀ d i, i ≤ j → neville (exCoeff (K := K)) (Function.update ys (j + 1) y) d i = neville (exCoeff (K := K)) ys d i := by
      intro d i hi
      apply neville_congr
      intro i' hi'
      rw [Function.update_of_ne (by omega)]
    obtain ⟨h2, g1, g2, g3, g4, g5, -⟩ := extrapolate_eval (j + 1) (by omega) (Function.update ys (j + 1) y) out hA.out_table h1
      (by rw [Nat.add_sub_cancel, upd _ _ le_rfl, f1 out (not_midp hA.out_owner) (hA.out_table j), hout])
      (by rw [Nat.add_sub_cancel, f2, Function.update_self])
      (fun i hi => by
        rw [Nat.add_sub_cancel] at hi ⊢
        rw [upd _ _ le_rfl, f1 (exTable i) (exTable_not_midp i) (exTable_ne (by omega)), htab i hi])
    have g1' : onHeap (extrapolate (j + 1) out) (⟨s.ctl, h1⟩ : BsState K V W) = .ok () ⟨s.ctl, h2⟩ := onHeap_ok g1
    rw [M.bind_ok g1']
    have hres : extrapolationResults (j + 1) sys (h0.state inp) (h0.state dxdt) t dt h0.world = .ok (Function.update ys (j + 1) y) h2.world := by
      rw [extrapolationResults_succ, M.bind_ok hys, M.bind_ok hr, g2, e2]
      rfl
    have F2 : BsFrame out h0 h2 := by
      intro l a1 a2 a3
      rw [(g5 l a1 a3).1, f1 l (not_midp a3) (fun h => a3 (h ▸ exTable_owned j)), hF l a1 a2 a3]
    have hx2 : h2.state inp = h0.state inp := F2 inp hA.inp_out hA.inp_err hA.inp_owner
    have hd2 : h2.state dxdt = h0.state dxdt := F2 dxdt hA.dxdt_out hA.dxdt_err hA.dxdt_owner
    have ht2 : h2.state (exTable 0) = neville (exCoeff (K := K)) (Function.update ys (j + 1) y) j (j + 1) := by
      have := g4 0 (by omega)
      rwa [show j + 1 - (0 + 1) = j by omega] at this
    have e4 : onHeap (linTo bsErr [(lit 1, out), (-lit 1, exTable 0)]) (⟨s.ctl, h2⟩ : BsState K V W) =
        .ok () ⟨s.ctl, h2.set bsErr (lin [((lit 1 : K), h2.state out), (-lit 1, h2.state (exTable 0))])⟩ := rfl
    rw [M.bind_ok e4]
    generalize hv : lin [((lit 1 : K), h2.state out), (-lit 1, h2.state (exTable 0))] = v
    have e5 : onHeap (bsCheck P inp dxdt dt) (⟨s.ctl, h2.set bsErr v⟩ : BsState K V W) =
        .ok (P.checker.error ((h2.set bsErr v).state inp) ((h2.set bsErr v).state dxdt) ((h2.set bsErr v).state bsErr) dt).2
          ⟨s.ctl, (h2.set bsErr v).set bsErr
            (P.checker.error ((h2.set bsErr v).state inp) ((h2.set bsErr v).state dxdt) ((h2.set bsErr v).state bsErr) dt).1⟩ := rfl
    rw [e5, Heap.set_state_ne _ _ hA.inp_err, Heap.set_state_ne _ _ hA.dxdt_err, Heap.set_state_self, hx2, hd2]
    generalize (P.checker.error (h0.state inp) (h0.state dxdt) v dt).1 = u
    have st : ∀ l, l ≠ bsErr → ((h2.set bsErr v).set bsErr u).state l = h2.state l := by
      intro l hl
      rw [Heap.set_state_ne _ _ hl, Heap.set_state_ne _ _ hl]
    refine ⟨⟨hc, ?_, Function.update ys (j + 1) y, ?_, ?_, ?_⟩, ?_⟩
    · intro l a1 a2 a3
      rw [st l a2]
      exact F2 l a1 a2 a3
    · exact hres
    · show ((h2.set bsErr v).set bsErr u).state out = _
      rw [st out hA.out_err]
      exact g3
    · intro i hi
      show ((h2.set bsErr v).set bsErr u).state (exTable i) = _
      rw [st _ (fun h => bsErr_owner (h ▸ exTable_owned i))]
      exact g4 i hi
    · refine ⟨(neville (exCoeff (K := K)) (Function.update ys (j + 1) y) (j + 1) (j + 1), v), ?_, ?_, rfl⟩
      · unfold extrapolationErrStep
        rw [M.bind_ok hres, ← hv, g3, ht2]
        rfl
      · show ((h2.set bsErr v).set bsErr u).state out = _
        rw [st out hA.out_err]
        exact g3

theorem bsStage_sat (hA : BsApart inp dxdt out) (hs : sys.Defined) (k : ℕ) (hk1 : 1 ≤ k) (hk2 : k ≤ 8) (s : BsState K V W)
    (hI : BsInv sys inp dxdt out t dt h0 c k s) :
    (bsStage P sys inp dxdt t out dt k s).Sat
      (fun e s' => BsInv sys inp dxdt out t dt h0 c (k + 1) s' ∧ BsDone P sys inp dxdt out t dt h0 k e s')
      (BsThrown sys inp dxdt out t dt h0 c) True :=
  bsStage_sat_of P sys t dt h0 c hA hs (fun _ _ _ => trivial) k hk1 hk2 s hI

end Stage
end Verif
