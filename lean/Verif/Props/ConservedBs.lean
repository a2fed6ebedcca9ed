import Verif.Props.Conserved
import Verif.Props.CallsBs
import Verif.Spec.BulirschStoerRun

/-!
# C76 for the extrapolation methods

Linear conservation laws hold in whole integrations with `bulirsch_stoer`: the extrapolation combines two states with weights whose sum is one.
-/

namespace Verif
variable {K V U W : Type} [Field K] [AddCommGroup V] [Module K V] [AddCommGroup U] [Module K U] {l : V →ₗ[K] U} {sys : Sys K V W} {c : U}

/-! ## The loop over the stages -/

theorem bsLoop_keeps {S : Type} (R : BsRules K) (O : NumOps K) (b : BsCtl K) (dt : K) {stage0 : M S Unit} {stage : ℕ → M S K} (I : ℕ → S → Prop)
    (hs : ∀ k s, 1 ≤ k → I k s → (stage k s).Keeps (fun _ s' => I (k + 1) s') fun _ => True) :
    ∀ (n k : ℕ) (hopt work : ℕ → K) (s : S), 1 ≤ k → I k s →
      (bsLoop R O b dt stage0 stage n k hopt work s).Keeps (fun _ s' => ∃ k', 1 ≤ k' ∧ I k' s') fun _ => True := by
  intro n
  induction n with
  | zero => intro k hopt work s hk hI; exact ⟨k, hk, hI⟩
  | succ n ih =>
    intro k hopt work s hk hI
    rw [bsLoop, if_neg (by omega)]
    refine Res.Keeps.bind (R := fun _ s' => I k s') ?_ fun _ s hI => (hs k s hk hI).bind fun e s hI => ?_
    · unfold chk
      split
      · exact hI
      · trivial
    · unfold orNext
      refine Res.Keeps.bind (R := fun _ s' => I (k + 1) s') ?_ fun r s hI => ?_
      · cases e1 : bsDecide R O b k e (Function.update hopt k (bsCalcHopt R O dt e k)) (Function.update work k (lit (bsCost R k) / bsCalcHopt R O dt e k)) s with
        | ok a s' =>
          obtain rfl := bsDecide_silent R O b k e _ _ s a s' e1
          exact hI
        | err _ _ => trivial
        | ub => trivial
        | div => trivial
      · cases r with
        | some r => exact ⟨k + 1, by omega, hI⟩
        | none => exact ih _ _ _ _ (by omega) hI

omit [Field K] [AddCommGroup V] [Module K V] in
theorem onHeap_goes {α : Type} {m : StepM K V W α} {s : BsState K V W} {R : α → Heap K V W → Prop} (h : (m s.heap).Keeps R fun _ => True) :
    (onHeap m s).Keeps (fun a s' => R a s'.heap) fun _ => True := by
  unfold onHeap
  cases e : m s.heap with
  | ok a h' => rw [e] at h; exact h
  | err _ _ => trivial
  | ub => trivial
  | div => trivial

/-! ## The stages -/

/-- What is known before stage `k` of a try that starts from the user's state `x`, of which the derivative is in `bsDxdt`. -/
structure BsGood (l : V →ₗ[K] U) (c : U) (x : Loc) (k : ℕ) (h : Heap K V W) : Prop where
  start : l (h.state x) = c
  deriv : l (h.state bsDxdt) = 0
  new : 1 ≤ k → l (h.state bsXnew) = c
  table : ∀ i, i + 1 < k → l (h.state (exTable i)) = c

theorem affine_linear {a : K} {x y : V} (hx : l x = c) (hy : l y = c) : l (lin [(lit 1 + a, x), (-a, y)]) = c := by
  simp only [map_lin, List.map_cons, List.map_nil, List.sum_cons, List.sum_nil, hx, hy, add_zero, ← add_smul, lit, Int.cast_one]
  rw [add_neg_cancel_right, one_smul]

theorem midpoint_good [NeZero (2 : K)] (hl : InKernel l sys) (m : ℕ) (hm : 1 ≤ m) (hm' : m < 65536) (t dt : K) (out : Loc) (ho : ¬ out.ownedBy [.midp])
    (h : Heap K V W) (k : ℕ) (hg : BsGood l c (.user 0) k h) :
    (midpointImpl m sys (.user 0) bsDxdt t out dt h).Keeps
      (fun _ h' => l (h'.state out) = c ∧ ∀ j : Loc, ¬ j.ownedBy [.midp] → j ≠ out → h'.state j = h.state j) fun _ => True := by
  have := Res.Keeps.of_implements (midpoint_implements m hm hm' sys (.user 0) bsDxdt out t dt h (ownedBy_user _ _))
    (midpointStep_linear hl m _ _ hg.deriv t dt _)
  refine this.mono ?_ fun _ h => h
  rintro _ h' ⟨v, hv, hs⟩
  refine ⟨?_, fun j hj hne => ?_⟩
  · rw [(hs out ho).1]
    simp [Heap.setAll, hv, hg.start]
  · rw [(hs j hj).1]
    simp [Heap.setAll, Heap.set_state_apply, hne]

theorem extrapolateLoop_good (k : ℕ) : ∀ (j : ℕ) (h : Heap K V W), (∀ i, i ≤ j → l (h.state (exTable i)) = c) →
    ∃ h', extrapolateLoop k j h = .ok () h' ∧ (∀ i, i ≤ j → l (h'.state (exTable i)) = c) ∧ ∀ p : Loc, (∀ i, i < j → p ≠ exTable i) → h'.state p = h.state p := by
  intro j
  induction j with
  | zero => intro h ht; exact ⟨h, rfl, ht, fun _ _ => rfl⟩
  | succ j ih =>
    intro h ht
    rw [extrapolateLoop, M.bind_ok (m := linTo (exTable j) _) rfl]
    have hne : exTable (j + 1) ≠ exTable j := by simp [exTable]
    have hnew : ∀ i, i ≤ j → l ((h.set (exTable j) (lin (([(lit 1 + exCoeff k (j + 1), exTable (j + 1)), (-exCoeff k (j + 1), exTable j)] : List (K × Loc)).map
        fun p => (p.1, h.state p.2)))).state (exTable i)) = c := by
      intro i hi
      by_cases hij : i = j
      · subst hij
        rw [Heap.set_state_self]
        exact affine_linear (ht _ le_rfl) (ht _ (by omega))
      · rw [Heap.set_state_ne _ _ (by simp [exTable]; omega)]
        exact ht i (by omega)
    obtain ⟨h', e, h1, h2⟩ := ih _ hnew
    refine ⟨h', e, fun i hi => ?_, fun p hp => ?_⟩
    · rcases Nat.lt_or_ge i (j + 1) with hlt | hge
      · exact h1 i (by omega)
      · obtain rfl : i = j + 1 := by omega
        rw [h2 _ (fun i hi => by simp [exTable]; omega), Heap.set_state_ne _ _ hne]
        exact ht _ le_rfl
    · rw [h2 p fun i hi => hp i (by omega), Heap.set_state_ne _ _ (hp j (by omega))]

theorem bsStage_good [NeZero (2 : K)] (P : BsParams K V) (hl : InKernel l sys) (t dt : K) (k : ℕ) (s : BsState K V W) (hk : 1 ≤ k)
    (hg : BsGood l c (.user 0) k s.heap) :
    (bsStage P sys (.user 0) bsDxdt t bsXnew dt k s).Keeps (fun _ s' => BsGood l c (.user 0) (k + 1) s'.heap) fun _ => True := by
  unfold bsStage
  refine Res.Keeps.bind (R := fun _ s' => BsGood l c (.user 0) k s'.heap ∧ k ≤ 8) ?_ ?_
  · unfold chk
    split
    · exact ⟨hg, by omega⟩
    · trivial
  rintro _ s ⟨hg, h8⟩
  refine Res.Keeps.bind (R := fun _ s' => BsGood l c (.user 0) k s'.heap ∧ l (s'.heap.state (exTable (k - 1))) = c) ?_ ?_
  · refine (onHeap_goes (midpoint_good hl (interval k) (by unfold interval; omega) (by unfold interval; omega) t dt (exTable (k - 1))
      (by simp [exTable, Loc.ownedBy]) s.heap k hg)).mono ?_ fun _ h => h
    rintro _ s' ⟨h1, h2⟩
    refine ⟨⟨?_, ?_, fun h => ?_, fun i hi => ?_⟩, h1⟩
    · rw [h2 _ (by simp [Loc.ownedBy]) (by simp [exTable])]; exact hg.start
    · rw [h2 _ (by simp [Loc.ownedBy, bsDxdt]) (by simp [exTable, bsDxdt])]; exact hg.deriv
    · rw [h2 _ (by simp [Loc.ownedBy, bsXnew]) (by simp [exTable, bsXnew])]; exact hg.new h
    · rw [h2 _ (by simp [Loc.ownedBy, exTable]) (by simp [exTable]; omega)]; exact hg.table i hi
  rintro _ s ⟨hg, hlast⟩
  refine Res.Keeps.bind (R := fun _ s' => BsGood l c (.user 0) (k + 1) s'.heap) ?_ ?_
  · refine onHeap_goes (R := fun _ h' => BsGood l c (.user 0) (k + 1) h') ?_
    obtain ⟨h', e, h1, h2⟩ := extrapolateLoop_good (l := l) (c := c) k (k - 1) s.heap fun i hi => by
      rcases Nat.lt_or_ge (i + 1) k with hlt | hge
      · exact hg.table i hlt
      · obtain rfl : i = k - 1 := by omega
        exact hlast
    unfold extrapolate
    rw [M.bind_ok e]
    refine ⟨?_, ?_, fun _ => ?_, fun i hi => ?_⟩
    · rw [Heap.set_state_ne _ _ (by simp [bsXnew]), h2 _ (by simp [exTable])]; exact hg.start
    · rw [Heap.set_state_ne _ _ (by simp [bsXnew, bsDxdt]), h2 _ (by simp [exTable, bsDxdt])]; exact hg.deriv
    · rw [Heap.set_state_self]
      exact affine_linear (h1 0 (by omega)) (by rw [h2 _ (by simp [exTable, bsXnew])]; exact hg.new hk)
    · rw [Heap.set_state_ne _ _ (by simp [bsXnew, exTable])]; exact h1 i (by omega)
  rintro _ s hg
  have err : ∀ (h : Heap K V W) v, BsGood l c (.user 0) (k + 1) h → BsGood l c (.user 0) (k + 1) (h.set bsErr v) := by
    intro h v hg
    refine ⟨?_, ?_, fun hk => ?_, fun i hi => ?_⟩
    · rw [Heap.set_state_ne _ _ (by simp [bsErr])]; exact hg.start
    · rw [Heap.set_state_ne _ _ (by simp [bsErr, bsDxdt])]; exact hg.deriv
    · rw [Heap.set_state_ne _ _ (by simp [bsErr, bsXnew])]; exact hg.new hk
    · rw [Heap.set_state_ne _ _ (by simp [bsErr, exTable])]; exact hg.table i hi
  refine Res.Keeps.bind (R := fun _ s' => BsGood l c (.user 0) (k + 1) s'.heap) ?_ fun _ s hg => ?_
  · exact onHeap_goes (R := fun _ h' => BsGood l c (.user 0) (k + 1) h') (err _ _ hg)
  · exact onHeap_goes (R := fun _ h' => BsGood l c (.user 0) (k + 1) h') (err _ _ hg)

/-- A try, accepted or not. -/
theorem bsTry1_linear [NeZero (2 : K)] (P : BsParams K V) (resized : Bool) (hl : InKernel l sys) (t dt : K) (s : BsState K V W)
    (hx : l (s.heap.state (.user 0)) = c) :
    (bsTry1 P resized sys (.user 0) t dt s).Keeps (fun _ s' => l (s'.heap.state (.user 0)) = c) fun _ => True := by
  unfold bsTry1
  refine Res.Keeps.bind (R := fun _ s' => BsGood l c (.user 0) 0 s'.heap) ?_ fun _ s hg => ?_
  · refine onHeap_goes (R := fun _ h' => BsGood l c (.user 0) 0 h') ?_
    unfold callSys
    cases e : sys (s.heap.state (.user 0)) t s.heap.world with
    | ok k w =>
      refine ⟨?_, ?_, fun h => absurd h (by omega), fun i hi => absurd hi (by omega)⟩
      · simpa [Heap.put_state_apply, bsDxdt] using hx
      · simpa [Heap.put_state_apply] using hl _ _ _ _ _ e
    | err _ _ => trivial
    | ub => trivial
    | div => trivial
  unfold bsTry2
  refine Res.Keeps.bind (R := fun r s' => l (s'.heap.state (.user 0)) = c ∧ (r.success = true → l (s'.heap.state bsXnew) = c)) ?_ ?_
  · unfold bsTry4
    by_cases hL : bsTooLong P dt = true
    · rw [if_pos hL]
      exact ⟨hg.start, fun h => nomatch h⟩
    · rw [if_neg hL, M.bind_ok (m := M.get) (w' := s) (a := s) rfl]
      generalize bsPrepare P resized dt s.ctl = b
      unfold bsTryBody
      rw [M.bind_ok (m := setCtl b) (w' := ⟨b, s.heap⟩) (a := ()) rfl]
      refine Res.Keeps.bind (R := fun _ s' => ∃ k', 1 ≤ k' ∧ BsGood l c (.user 0) k' s'.heap) ?_ ?_
      · rw [show b.kopt + 2 = (b.kopt + 1) + 1 by omega, bsLoop, if_pos rfl]
        refine Res.Keeps.bind (R := fun _ s' => BsGood l c (.user 0) 1 s'.heap) ?_ fun _ s hg =>
          bsLoop_keeps bsRules P.ops b dt (fun k s' => BsGood l c (.user 0) k s'.heap) (fun k s hk hg => bsStage_good P hl t dt k s hk hg) _ 1 _ _ s le_rfl hg
        refine (onHeap_goes (s := ⟨b, s.heap⟩) (midpoint_good hl (interval 0) (by unfold interval; omega) (by unfold interval; omega) t dt bsXnew
          (by simp [bsXnew, Loc.ownedBy]) s.heap 0 hg)).mono ?_ fun _ h => h
        rintro _ s' ⟨h1, h2⟩
        refine ⟨?_, ?_, fun h => h1, fun i hi => absurd hi (by omega)⟩
        · rw [h2 _ (by simp [Loc.ownedBy]) (by simp [bsXnew])]; exact hg.start
        · rw [h2 _ (by simp [Loc.ownedBy, bsDxdt]) (by simp [bsXnew, bsDxdt])]; exact hg.deriv
      · rintro r s' ⟨k', hk', hg⟩
        exact ⟨hg.start, fun _ => hg.new hk'⟩
  · rintro r s ⟨h1, h2⟩
    by_cases hr : r.success = true
    · rw [if_pos hr]
      refine Res.Keeps.bind (R := fun _ s' => l (s'.heap.state (.user 0)) = c) (onHeap_goes (R := fun _ h' => l (h'.state (.user 0)) = c) ?_) fun _ _ h => ?_
      swap
      · exact h
      show l ((s.heap.set (.user 0) (s.heap.state bsXnew)).state (.user 0)) = c
      rw [Heap.set_state_self]
      exact h2 hr
    · rw [if_neg hr]
      exact h1

/-! ## Integration -/

/-- **C76**, `bulirsch_stoer`, whatever it was used for before, with any error checker and maximal step size, and whenever its resizer resets it. -/
theorem bulirsch_stoer_linear_conserved [NeZero (2 : K)] {R : Type} (resizer : R → Bool × R) (P : BsParams K V) (hl : InKernel l sys) (c : U) :
    ControlledConserves (bsObject resizer fun resized x t dt => bsTry1 P resized sys x t dt) (fun _ => True) fun x => l x = c := by
  refine controlled_conserves (J := fun _ _ => True) ?_ fun _ _ _ _ => trivial
  intro q x t dt w lg _ hx
  have := bsTry1_linear (c := c) P (resizer q.2).1 hl t dt ⟨q.1.ctl, (q.1.heap.set (.user 0) x).withWorld w⟩
    (by simpa [Heap.withWorld, Heap.set_state_apply] using hx)
  unfold Res.Keeps
  simp only [bsObject]
  cases e : bsTry1 P (resizer q.2).1 sys (.user 0) t dt ⟨q.1.ctl, (q.1.heap.set (.user 0) x).withWorld w⟩ with
  | ok r s =>
    rw [e] at this
    exact ⟨trivial, this, rfl⟩
  | err _ _ => trivial
  | ub => trivial
  | div => trivial

/-! ## The hypotheses can be met -/

example (k : ℝ → ℝ) (c : ℝ) (P : BsParams ℝ (ℝ × ℝ)) : ControlledConserves (bsObject (fun u : Unit => (false, u)) fun resized x t dt => bsTry1 P resized
    (countSys fun (x : ℝ × ℝ) t => (-(k t * x.1 * x.2), k t * x.1 * x.2)) x t dt) (fun _ => True) fun x => totalAmount x = c :=
  bulirsch_stoer_linear_conserved _ P (reaction_inKernel k) c

end Verif
