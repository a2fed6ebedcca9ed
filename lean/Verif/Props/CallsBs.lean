import Verif.Props.Calls
import Verif.Props.BulirschStoer
import Verif.Spec.BulirschStoerRun

/-!
# C84 for `bulirsch_stoer`

The number of evaluations depends on the data, but it is always the one of a step of `extrapolation_stepper< 2k+2 >` for some `k` from 1 to 8.
-/

set_option linter.unusedSectionVars false

namespace Verif
variable {K V U : Type} [Field K] [LinearOrder K] [IsStrictOrderedRing K] [StateOps K V] {sys : Sys K V ℕ}

theorem Steady.onHeap {α : Type} {p : StepM K V ℕ α} {c : ℕ} (hp : Steady c p) (s : BsState K V ℕ) :
    ∃ a h', onHeap p s = .ok a ⟨s.ctl, h'⟩ ∧ h'.world = s.heap.world + c := by
  obtain ⟨a, h', e, w, -⟩ := hp s.heap
  exact ⟨a, h', by unfold Verif.onHeap; rw [e], w⟩

theorem takes_extrapolate (k : ℕ) (out : Loc) : Steady 0 (extrapolate k out : StepM K V ℕ Unit) :=
  Steady.bind (takes_extrapolateLoop _ _) fun _ => takes_lin _ _

theorem takes_bsCheck (P : BsParams K V) (inp dxdt : Loc) (dt : K) : Steady 0 (bsCheck P inp dxdt dt : StepM K V ℕ K) :=
  fun _ => ⟨_, _, rfl, rfl, rfl, rfl⟩

/-- the costs of one stage -/
theorem bsStage_takes (P : BsParams K V) (hc : Counts sys) (inp dxdt out : Loc) (t dt : K) {k : ℕ} (h1 : 1 ≤ k) (h8 : k ≤ 8) (s : BsState K V ℕ) :
    ∃ e h', bsStage P sys inp dxdt t out dt k s = .ok e ⟨s.ctl, h'⟩ ∧ h'.world = s.heap.world + 2 * (k + 1) := by
  obtain ⟨_, g1, e1, w1⟩ := (takes_midpoint hc (m := interval k) (by unfold interval; omega) (by unfold interval; omega) inp dxdt (exTable (k - 1)) t dt).onHeap s
  obtain ⟨_, g2, e2, w2⟩ := (takes_extrapolate k out).onHeap (⟨s.ctl, g1⟩ : BsState K V ℕ)
  obtain ⟨_, g3, e3, w3⟩ := (takes_lin bsErr [(lit 1, out), (-lit 1, exTable 0)]).onHeap (⟨s.ctl, g2⟩ : BsState K V ℕ)
  obtain ⟨e, g4, e4, w4⟩ := (takes_bsCheck P inp dxdt dt).onHeap (⟨s.ctl, g3⟩ : BsState K V ℕ)
  refine ⟨e, g4, ?_, ?_⟩
  · unfold bsStage
    rw [M.bind_ok (m := chk (1 ≤ k ∧ k - 1 < 8)) (a := ()) (w' := s) (by unfold chk; rw [if_pos (by omega)]; rfl), M.bind_ok e1, M.bind_ok e2, M.bind_ok e3]
    exact e4
  · have hi : interval k = 2 * (k + 1) := by unfold interval; ring
    dsimp only at w2 w3 w4
    rw [hi] at w1
    omega

/-- the costs of the stages before stage `k` -/
def BsCalls (w : ℕ) (k : ℕ) (s : BsState K V ℕ) : Prop := s.heap.world = w + k * (k + 1)

theorem bsTry4_calls (P : BsParams K V) (resized : Bool) (hc : Counts sys) (inp dxdt out : Loc) (t dt : K) (s : BsState K V ℕ) (hv : s.ctl.Valid) :
    ∃ r s', bsTry4 P resized sys inp dxdt t out dt s = .ok r s' ∧ s'.ctl.Valid ∧
      ((bsTooLong P dt = true ∧ r.success = false ∧ s'.heap.world = s.heap.world) ∨
        bsTooLong P dt = false ∧ ∃ k, 1 ≤ k ∧ k ≤ 8 ∧ s'.heap.world = s.heap.world + (k + 1) * (k + 2)) := by
  have hcv := bsPrepare_valid P resized dt s.ctl hv
  have key := bsTry4_sat (D := False) P resized sys inp dxdt t out dt s hv (fun _ => True) (fun k s' => BsCalls s.heap.world k s')
    (fun _ _ _ => True) (fun _ _ => False) ?_ ?_
  · cases hr : bsTry4 P resized sys inp dxdt t out dt s with
    | ub => rw [hr] at key; exact key.elim
    | div => rw [hr] at key; exact key.elim
    | err e s' => rw [hr] at key; exact key.elim
    | ok r s' =>
      rw [hr] at key
      rcases key with ⟨hl, rfl, rfl⟩ | ⟨hl, b, k, e, s1, rfl, rfl, hI, -, -, hL⟩
      · exact ⟨_, _, rfl, hv, .inl ⟨hl, rfl, rfl⟩⟩
      · have hk : k ≤ (bsPrepare P resized dt s.ctl).kopt + 1 := hL.k2
        have := hcv.2.1
        exact ⟨_, _, rfl, bsNewCtl_valid P _ b dt hL.lo hL.hi, .inr ⟨hl, k, hL.k1, by omega, hI⟩⟩
  · obtain ⟨_, g, e, w⟩ := (takes_midpoint hc (m := interval 0) (by unfold interval; omega) (by unfold interval; omega) inp dxdt out t dt).onHeap
      (⟨bsPrepare P resized dt s.ctl, s.heap⟩ : BsState K V ℕ)
    rw [e]
    show g.world = _
    rw [w]
    rfl
  · intro k s' h1 h8 hI
    obtain ⟨e, g, he, w⟩ := bsStage_takes P hc inp dxdt out t dt h1 h8 s'
    rw [he]
    refine ⟨?_, trivial, trivial⟩
    show g.world = _
    have hI : s'.heap.world = s.heap.world + k * (k + 1) := hI
    rw [w, hI]
    ring

/-- **C84, `try_step` of `bulirsch_stoer`**, in every state of the object: successful or not, it costs as much as a step of
`extrapolation_stepper< 2k+2 >` (`do_step_extrapolation_calls`), for some `k` from 1 to 8; a step that is rejected because it exceeds the maximal step size
costs one evaluation.  One evaluation is saved if the caller supplies the derivative. -/
theorem try_step_bulirsch_stoer_calls (P : BsParams K V) (resized : Bool) (hc : Counts sys) (x dxdt out : Loc) (t dt : K) (s : BsState K V ℕ)
    (hv : s.ctl.Valid) :
    let Takes := fun (given : ℕ) (p : M (BsState K V ℕ) (TryOut K)) => ∃ r s', p s = .ok r s' ∧ s'.ctl.Valid ∧
      ((bsTooLong P dt = true ∧ r.success = false ∧ s'.heap.world + given = s.heap.world + 1) ∨
        bsTooLong P dt = false ∧ ∃ k, 1 ≤ k ∧ k ≤ 8 ∧ s'.heap.world + given = s.heap.world + ((k + 1) * (k + 2) + 1))
    Takes 0 (bsTry1 P resized sys x t dt) ∧ Takes 1 (bsTry2 P resized sys x dxdt t dt) ∧ Takes 0 (bsTry3 P resized sys x t out dt) ∧
      Takes 1 (bsTry4 P resized sys x dxdt t out dt) := by
  intro Takes
  have two : ∀ (dxdt : Loc) (s : BsState K V ℕ), s.ctl.Valid → ∃ r s', bsTry2 P resized sys x dxdt t dt s = .ok r s' ∧ s'.ctl.Valid ∧
      ((bsTooLong P dt = true ∧ r.success = false ∧ s'.heap.world = s.heap.world) ∨
        bsTooLong P dt = false ∧ ∃ k, 1 ≤ k ∧ k ≤ 8 ∧ s'.heap.world = s.heap.world + (k + 1) * (k + 2)) := by
    intro dxdt s hv
    obtain ⟨r, s', e, hv', h⟩ := bsTry4_calls P resized hc x dxdt bsXnew t dt s hv
    unfold bsTry2
    rw [M.bind_ok e]
    split
    · exact ⟨r, ⟨s'.ctl, s'.heap.set x (s'.heap.state bsXnew)⟩, rfl, hv', h⟩
    · exact ⟨r, s', rfl, hv', h⟩
  have shift : ∀ {r : TryOut K} {w w' : ℕ} (g : ℕ), g ≤ 1 → ((bsTooLong P dt = true ∧ r.success = false ∧ w' + g = w + 1) ∨
        bsTooLong P dt = false ∧ ∃ k, 1 ≤ k ∧ k ≤ 8 ∧ w' + g = w + 1 + (k + 1) * (k + 2)) →
      ((bsTooLong P dt = true ∧ r.success = false ∧ w' + g = w + 1) ∨
        bsTooLong P dt = false ∧ ∃ k, 1 ≤ k ∧ k ≤ 8 ∧ w' + g = w + ((k + 1) * (k + 2) + 1)) := by
    rintro r w w' g - (h | ⟨h, k, h1, h2, h3⟩)
    · exact .inl h
    · exact .inr ⟨h, k, h1, h2, by rw [h3]; ring⟩
  have first : ∃ h', onHeap (callSys sys x bsDxdt t) s = .ok () ⟨s.ctl, h'⟩ ∧ h'.world = s.heap.world + 1 := by
    obtain ⟨_, h', e, w⟩ := (takes_sys hc x bsDxdt t).onHeap s
    exact ⟨h', e, w⟩
  obtain ⟨h', e0, w0⟩ := first
  refine ⟨?_, ?_, ?_, ?_⟩
  · obtain ⟨r, s', e, hv', h⟩ := two bsDxdt ⟨s.ctl, h'⟩ hv
    refine ⟨r, s', by unfold bsTry1; rw [M.bind_ok e0, e], hv', shift 0 (by omega) ?_⟩
    dsimp only at h
    rw [w0] at h
    exact h
  · obtain ⟨r, s', e, hv', h⟩ := two dxdt s hv
    refine ⟨r, s', e, hv', ?_⟩
    rcases h with ⟨h1, h2, h3⟩ | ⟨h1, k, h2, h3, h4⟩
    · exact .inl ⟨h1, h2, by rw [h3]⟩
    · exact .inr ⟨h1, k, h2, h3, by rw [h4]; ring⟩
  · obtain ⟨r, s', e, hv', h⟩ := bsTry4_calls P resized hc x bsDxdt out t dt ⟨s.ctl, h'⟩ hv
    refine ⟨r, s', by unfold bsTry3; rw [M.bind_ok e0, e], hv', shift 0 (by omega) ?_⟩
    dsimp only at h
    rw [w0] at h
    exact h
  · obtain ⟨r, s', e, hv', h⟩ := bsTry4_calls P resized hc x dxdt out t dt s hv
    refine ⟨r, s', e, hv', ?_⟩
    rcases h with ⟨h1, h2, h3⟩ | ⟨h1, k, h2, h3, h4⟩
    · exact .inl ⟨h1, h2, by rw [h3]⟩
    · exact .inr ⟨h1, k, h2, h3, by rw [h4]; ring⟩

/-! ## Integration -/

/-- a computation that does not change anything -/
def Silent {S α : Type} (m : M S α) : Prop := ∀ s a s', m s = .ok a s' → s' = s

theorem Silent.pure {S α : Type} (a : α) : Silent (Pure.pure a : M S α) := fun _ _ _ e => by cases e; rfl

theorem Silent.chk {S : Type} (p : Prop) [Decidable p] : Silent (Verif.chk p : M S Unit) := by
  intro s a s' e
  unfold Verif.chk at e
  split at e <;> cases e
  rfl

theorem Silent.bind {S α β : Type} {m : M S α} {f : α → M S β} (hm : Silent m) (hf : ∀ a, Silent (f a)) : Silent (m >>= f) := by
  intro s b s' e
  obtain ⟨a, s1, e1, e2⟩ := bind_ok_inv e
  rw [hf a _ _ _ e2, hm _ _ _ e1]

omit [LinearOrder K] [IsStrictOrderedRing K] in
theorem bsDecide_silent {S : Type} (R : BsRules K) (O : NumOps K) (c : BsCtl K) (k : ℕ) (error : K) (hopt work : ℕ → K) :
    Silent (bsDecide R O c k error hopt work : M S (Option (BsBreak K))) := by
  have hrej : Silent (bsShouldReject R O c.kopt error k : M S Bool) := by
    unfold bsShouldReject
    split
    · exact (Silent.chk _).bind fun _ => Silent.pure _
    · split
      · exact (Silent.chk _).bind fun _ => Silent.pure _
      · exact Silent.pure _
  have next : ∀ {a b : M S (Option (BsBreak K))}, Silent a → Silent b → Silent (orNext a b) := fun ha hb => ha.bind fun o => by
    cases o
    · exact hb
    · exact Silent.pure _
  refine next ?_ (next ?_ ?_)
  · unfold bsBefore
    split
    · split
      · refine (Silent.chk _).bind fun _ => ?_
        split
        · exact (Silent.chk _).bind fun _ => Silent.pure _
        · exact Silent.pure _
      · refine hrej.bind fun _ => ?_
        split <;> exact Silent.pure _
    · exact Silent.pure _
  · unfold bsAt
    split
    · split
      · refine (Silent.chk _).bind fun _ => ?_
        split
        · exact (Silent.chk _).bind fun _ => Silent.pure _
        · split
          · exact (Silent.chk _).bind fun _ => Silent.pure _
          · exact Silent.pure _
      · refine hrej.bind fun _ => (Silent.chk _).bind fun _ => ?_
        split <;> exact Silent.pure _
    · exact Silent.pure _
  · unfold bsAfter
    split
    · split
      · exact (Silent.chk _).bind fun _ => (Silent.chk _).bind fun _ => (Silent.chk _).bind fun _ => Silent.pure _
      · exact (Silent.chk _).bind fun _ => Silent.pure _
    · exact Silent.pure _

/-- the loop over the stages, from stage `k` -/
theorem bsLoop_calls (P : BsParams K V) (hc : Counts sys) (inp dxdt out : Loc) (t dt : K) (c : BsCtl K) (stage0 : M (BsState K V ℕ) Unit) (w : ℕ) :
    ∀ (n k : ℕ) (hopt work : ℕ → K) (s s' : BsState K V ℕ) (r : Option (BsBreak K)), 1 ≤ k → k ≤ 9 → BsCalls w k s →
      bsLoop bsRules P.ops c dt stage0 (bsStage P sys inp dxdt t out dt) n k hopt work s = .ok r s' →
      ∃ j, BsCalls w (j + 1) s' ∧ j ≤ 8 ∧ k ≤ j + 1 ∧ (r.isSome = true → k ≤ j) := by
  intro n
  induction n with
  | zero =>
    intro k hopt work s s' r h1 h9 hw e
    cases e
    exact ⟨k - 1, by rwa [Nat.sub_add_cancel h1], by omega, by omega, fun h => (nomatch h)⟩
  | succ n ih =>
    intro k hopt work s s' r h1 h9 hw e
    rw [bsLoop, if_neg (by omega)] at e
    obtain ⟨_, s1, e1, e'⟩ := bind_ok_inv e
    clear e
    have h8 : k ≤ 8 := by
      unfold Verif.chk bsSize at e1
      split at e1
      · omega
      · cases e1
    obtain rfl := Silent.chk _ _ _ _ e1
    obtain ⟨err, g, e2, w2⟩ := bsStage_takes P hc inp dxdt out t dt h1 h8 s1
    rw [M.bind_ok e2] at e'
    have hw2 : BsCalls w (k + 1) (⟨s1.ctl, g⟩ : BsState K V ℕ) := by
      have hw : s1.heap.world = w + k * (k + 1) := hw
      show g.world = _
      rw [w2, hw]
      ring
    unfold orNext at e'
    obtain ⟨o, s3, e3, e⟩ := bind_ok_inv e'
    obtain rfl := bsDecide_silent _ _ _ _ _ _ _ _ _ _ e3
    cases o with
    | some b =>
      cases e
      exact ⟨k, hw2, h8, by omega, fun _ => le_rfl⟩
    | none =>
      obtain ⟨j, j1, j2, j3, j4⟩ := ih (k + 1) _ _ _ _ _ (by omega) (by omega) hw2 e
      exact ⟨j, j1, j2, by omega, fun h => by have := j4 h; omega⟩

theorem bsTry4_takes (P : BsParams K V) (resized : Bool) (hc : Counts sys) (inp dxdt out : Loc) (t dt : K) {s s' : BsState K V ℕ} {r : TryOut K}
    (e : bsTry4 P resized sys inp dxdt t out dt s = .ok r s') :
    s'.heap.world ≤ s.heap.world + 90 ∧ (r.success = true → s.heap.world + 6 ≤ s'.heap.world) ∧ s.heap.world ≤ s'.heap.world := by
  unfold bsTry4 at e
  split at e
  · cases e
    exact ⟨by omega, fun h => by simp at h, le_rfl⟩
  · rw [M.bind_ok (m := M.get) (w' := s) (a := s) rfl] at e
    unfold bsTryBody at e
    rw [M.bind_ok (m := setCtl (bsPrepare P resized dt s.ctl)) (w' := ⟨bsPrepare P resized dt s.ctl, s.heap⟩) (a := ()) rfl] at e
    obtain ⟨o, s1, e1, e⟩ := bind_ok_inv e
    rw [bsLoop, if_pos rfl] at e1
    obtain ⟨_, g, e0, w0⟩ := (takes_midpoint hc (m := interval 0) (by unfold interval; omega) (by unfold interval; omega) inp dxdt out t dt).onHeap
      (⟨bsPrepare P resized dt s.ctl, s.heap⟩ : BsState K V ℕ)
    rw [M.bind_ok e0] at e1
    have hI : BsCalls s.heap.world 1 (⟨bsPrepare P resized dt s.ctl, g⟩ : BsState K V ℕ) := by
      show g.world = _
      rw [w0]
      rfl
    obtain ⟨j, j1, j2, j3, j4⟩ := bsLoop_calls P hc inp dxdt out t dt _ _ s.heap.world _ 1 _ _ _ _ _ le_rfl (by omega) hI e1
    have hw : s1.heap.world = s.heap.world + (j + 1) * (j + 1 + 1) := j1
    cases e
    refine ⟨?_, fun h => ?_, ?_⟩
    · show s1.heap.world ≤ _
      rw [hw]
      nlinarith
    · show _ ≤ s1.heap.world
      cases o with
      | none => exact absurd h (by simp [bsResult])
      | some b =>
        have := j4 rfl
        rw [hw]
        nlinarith
    · show _ ≤ s1.heap.world
      omega

/-- **C84, `bulirsch_stoer`**: in the integrate functions, each reported step takes at least 7 evaluations (those of `extrapolation_stepper< 4 >`), and each trial
at most 91 (those of `extrapolation_stepper< 18 >`), of which there are at most 500 for each step.  For every arithmetic and every state of the object. -/
theorem integrate_bulirsch_stoer_calls (A : TimeArith K) (resizer : U → Bool × U) (P : BsParams K V) (hc : Counts sys)
    {obs : Observer (ℕ × Log V K) V K} (ho : obs.Quiet fun w => w.1) (q : BsState K V ℕ × U) (x : V) (t0 t1 dt : K) (times : List K)
    (w w' : ℕ × Log V K) (x' : V) (n : ℕ) (r : AdaptResult V K) :
    let st := bsObject resizer fun resized x t dt => bsTry1 P resized sys x t dt
    (integrateAdaptiveControlled A st obs q x t0 t1 dt w = .ok r w' → w.1 + r.count * 7 ≤ w'.1 ∧ w'.1 ≤ w.1 + r.count * (500 * 91)) ∧
    (integrateConstControlled A st obs q x t0 t1 dt w = .ok (x', n) w' → w.1 + n * 7 ≤ w'.1 ∧ w'.1 ≤ w.1 + n * (500 * 91)) ∧
    (integrateTimesControlled A st obs q x times dt w = .ok (x', n) w' → w.1 + n * 7 ≤ w'.1 ∧ w'.1 ≤ w.1 + (n + 1) * (501 * 91)) := by
  intro st
  refine integrate_controlled_calls A st (calls := fun w : ℕ × Log V K => w.1) (lo := 7) (hi := 91) ?_ ho q x t0 t1 dt times w w' x' n r
  intro q x t dt w r w' e
  simp only [st, bsObject] at e
  cases he : bsTry1 P (resizer q.2).1 sys (.user 0) t dt ⟨q.1.ctl, (q.1.heap.set (.user 0) x).withWorld w.1⟩ with
  | err _ _ => rw [he] at e; cases e
  | ub => rw [he] at e; cases e
  | div => rw [he] at e; cases e
  | ok r' s' =>
    rw [he] at e
    cases e
    unfold bsTry1 at he
    obtain ⟨_, g, e0, w0⟩ := (takes_sys hc (.user 0) bsDxdt t).onHeap (⟨q.1.ctl, (q.1.heap.set (.user 0) x).withWorld w.1⟩ : BsState K V ℕ)
    rw [M.bind_ok e0] at he
    unfold bsTry2 at he
    obtain ⟨r1, s1, e1, he⟩ := bind_ok_inv he
    obtain ⟨_, s2, e2, he⟩ := bind_ok_inv he
    cases he
    obtain ⟨h1, h2, h3⟩ := bsTry4_takes P (resizer q.2).1 hc (.user 0) bsDxdt bsXnew t dt e1
    have hs : s'.heap.world = s1.heap.world := by
      split at e2 <;> cases e2 <;> rfl
    have w0 : g.world = w.1 + 1 := w0
    dsimp only at h1 h2 h3 ⊢
    rw [hs]
    exact ⟨by omega, fun h => by have := h2 h; omega, by omega⟩

/-- A concrete case: the first step of a new object, `x' = x` from `x = 1`, with an error checker that is always satisfied: the loop ends after stage 1,
with `7 = 2 * 3 + 1` evaluations, the minimum. -/
example :
    let sys : Sys ℚ ℚ ℕ := fun x _ n => .ok x (n + 1)
    let O : NumOps ℚ := ⟨fun a b => decide (a < b), fun a b => decide (a ≤ b), fun a b => decide (a = b), fun a => |a|, fun _ _ => 1, 0⟩
    let P : BsParams ℚ ℚ := ⟨O, ⟨fun _ _ e _ => (e, 1 / 2)⟩, 0⟩
    let s : BsState ℚ ℚ ℕ := ⟨BsCtl.construct 0, ⟨fun _ => 1, fun _ => 0, fun _ => false, fun _ => 0, 0⟩⟩
    Counts sys ∧ s.ctl.Valid ∧ (match bsTry1 P false sys (.user 0) 0 (1 / 10) s with
      | .ok r s' => decide (r.success = true ∧ r.t = 1 / 10 ∧ r.dt = 47 / 500 ∧ s'.heap.world = 7)
      | _ => false) = true := by
  intro sys O P s
  refine ⟨fun x _ n => ⟨x, rfl⟩, ⟨by decide, by decide, fun _ => rfl⟩, ?_⟩
  decide +kernel

end Verif
