import Verif.Props.BulirschStoerSize

/-!
# C23: the try after a rejected try
-/

namespace Verif
set_option linter.unusedSectionVars false
open XR
variable {V W : Type} [StateOps XR V]

/-- the members after a failed try: either the step was too long for `max_dt`, or the rejection and the proposed step are remembered -/
def BsRemembers (P : BsParams XR V) (d : XR) (r : TryOut XR) (s' : BsState XR V W) : Prop :=
  s'.ctl.Valid ∧ (r.success = false → (bsTooLong P d = true ∧ r.dt = P.maxDt) ∨ (s'.ctl.lastRej = true ∧ s'.ctl.dtLast = r.dt))

theorem bsTry4_remembers (P : BsParams XR V) (pow : XR → XR → XR) (ε d : ℝ) (hops : P.ops = ops pow (fin ε)) (resized : Bool) {sys : Sys XR V W}
    (hs : sys.Defined) (inp dxdt : Loc) (t : XR) (out : Loc) (s : BsState XR V W) (hv : s.ctl.Valid) :
    (bsTry4 P resized sys inp dxdt t out (fin d) s).Sat (fun r s' => BsRemembers P (fin d) r s') (fun _ _ => True) True := by
  refine ((bsTry4_valid P resized hs inp dxdt t out (fin d) s hv).and (bsTry4_sat (D := True) P resized sys inp dxdt t out (fin d) s hv (fun _ => True)
    (fun _ s' => s'.ctl = bsPrepare P resized (fin d) s.ctl) (fun _ _ _ => True) (fun _ _ => True) ?_ ?_)).mono ?_ (fun _ _ _ => trivial) (fun _ => trivial)
  · exact (onHeap_keeps rfl (midpointImpl_sat hs _ _ _ _ _ _ _)).mono (fun _ _ h => h) (fun _ _ _ => trivial) (fun h => h)
  · intro k s' h1 h2 hI
    exact (bsStage_result P hs inp dxdt t out (fin d) k h1 h2 _ s' hI).mono (fun _ _ h => ⟨h.1, trivial, trivial⟩) (fun _ _ _ => trivial) (fun h => h)
  · rintro r s' ⟨hval, ⟨h1, rfl, -⟩ | ⟨h0, b, k, e, s1, rfl, rfl, -⟩⟩
    · exact ⟨hval, fun _ => Or.inl ⟨h1, rfl⟩⟩
    · refine ⟨hval, fun hr => Or.inr ?_⟩
      have hb : b.reject = true := by simpa [bsResult] using hr
      refine ⟨hb, ?_⟩
      unfold bsNewCtl bsResult
      dsimp only
      by_cases hu : bsUpdates P (bsPrepare P resized (fin d) s.ctl) b (fin d) = true
      · rw [if_pos hu, if_pos hu]
      · rw [if_neg hu, if_neg hu]
        -- the step is kept only after a rejection, and then there was no reset
        have hl : (bsPrepare P resized (fin d) s.ctl).lastRej = true := by
          unfold bsUpdates at hu
          by_contra hc
          rw [Bool.not_eq_true] at hc
          rw [hc] at hu
          simp at hu
        unfold bsPrepare at hl ⊢
        split at hl
        · exact absurd hl (by simp [BsCtl.reset])
        · rename_i hn
          rw [if_neg hn]
          have he : P.ops.eq (fin d) s.ctl.dtLast = true := by
            by_contra hc
            exact hn (Or.inr (by simpa using hc))
          rw [hops] at he
          change XR.eq (fin d) s.ctl.dtLast = true at he
          cases hL : s.ctl.dtLast with
          | fin d' =>
            rw [hL] at he
            have : d = d' := by simpa [XR.eq] using he
            rw [this]
          | inf _ => rw [hL] at he; simp [XR.eq] at he
          | nan => rw [hL] at he; simp [XR.eq] at he

theorem bsTry1_remembers (P : BsParams XR V) (pow : XR → XR → XR) (ε d : ℝ) (hops : P.ops = ops pow (fin ε)) (resized : Bool) {sys : Sys XR V W}
    (hs : sys.Defined) (x : Loc) (t : XR) (s : BsState XR V W) (hv : s.ctl.Valid) :
    (bsTry1 P resized sys x t (fin d) s).Sat (fun r s' => BsRemembers P (fin d) r s') (fun _ _ => True) True := by
  unfold bsTry1
  refine Res.Sat.bind ((callSys_valid hs x bsDxdt t s hv).mono (fun _ s1 h1 => ?_) (fun _ _ _ => trivial) (fun h => h))
  unfold bsTry2
  refine Res.Sat.bind ((bsTry4_remembers P pow ε d hops resized hs x bsDxdt t bsXnew s1 h1).mono (fun r s2 h2 => ?_) (fun _ _ h => h) (fun h => h))
  by_cases hr : r.success = true
  · rw [if_pos hr]; exact h2
  · rw [if_neg hr]; exact h2

/-- a try, and another one with the proposed step if it failed -/
noncomputable def bsTryTwice (P : BsParams XR V) (resized : Bool) (sys : Sys XR V W) (x : Loc) (t dt : XR) : M (BsState XR V W) (TryOut XR × Option (TryOut XR)) := do
  let r ← bsTry1 P resized sys x t dt
  if r.success then pure (r, none)
  else do
    let r' ← bsTry1 P false sys x r.t r.dt
    pure (r, some r')

/-- C23: the try after a rejected one, made with the step that was proposed, does not propose a longer step, whether it succeeds or not. -/
theorem bulirsch_stoer_no_growth_after_rejection (P : BsParams XR V) (pow : XR → XR → XR) (ε d m : ℝ) (hops : P.ops = ops pow (fin ε))
    (hP : PowOk bsRules pow (fin ε)) (hε : 0 ≤ ε) (hchk : ∀ x d e dt, (P.checker.error x d e dt).2.NonNeg) (hm : P.maxDt = fin m)
    (hmd : m = 0 ∨ 0 < m * d) (hd : d ≠ 0) (resized : Bool) {sys : Sys XR V W} (hs : sys.Defined) (x : Loc) (t : XR) (s : BsState XR V W)
    (hv : s.ctl.Valid) :
    (bsTryTwice P resized sys x t (fin d) s).Sat
      (fun r _ => ∀ r', r.2 = some r' → ∃ d1 d2 : ℝ, r.1.dt = fin d1 ∧ r'.dt = fin d2 ∧ |d2| ≤ |d1|) (fun _ _ => True) True := by
  unfold bsTryTwice
  refine Res.Sat.bind (((bulirsch_stoer_step_size1 P pow ε d m hops hP hε hchk hm hmd hd resized hs x t s hv).and
    (bsTry1_remembers P pow ε d hops resized hs x t s hv)).mono (fun r s1 h1 => ?_) (fun _ _ h => trivial) (fun h => trivial))
  obtain ⟨⟨d1, e1, h11, h12, h13, h14⟩, hval, hrem⟩ := h1
  by_cases hr : r.success = true
  · rw [if_pos hr]
    intro r' h
    cases h
  · rw [if_neg hr]
    have hr' : r.success = false := by simpa using hr
    have hq : ∃ q, 0 < q ∧ d1 = d * q := by
      rcases h12 hr' with ⟨q, h1, -, h2⟩ | ⟨-, -, h⟩
      · exact ⟨q, h1, h2⟩
      · exact ⟨1, one_pos, by rw [h, mul_one]⟩
    obtain ⟨q, hq0, hq1⟩ := hq
    have hd1 : d1 ≠ 0 := by rw [hq1]; exact mul_ne_zero hd hq0.ne'
    have hmd1 : m = 0 ∨ 0 < m * d1 := by
      refine hmd.imp id fun h => ?_
      rw [hq1, ← mul_assoc]
      exact mul_pos h hq0
    rw [e1]
    refine Res.Sat.bind ((bulirsch_stoer_step_size1 P pow ε d1 m hops hP hε hchk hm hmd1 hd1 false hs x r.t s1 hval).mono
      (fun r' s2 h2 => ?_) (fun _ _ h => h) (fun h => h))
    obtain ⟨d2, e2, -, -, h23, h24⟩ := h2
    intro r'' h
    cases h
    refine ⟨d1, d2, e1, e2, ?_⟩
    rcases hrem hr' with ⟨hlong, hmax⟩ | ⟨hl, hlast⟩
    · have hd1m : d1 = m := by
        rw [e1, hm] at hmax
        injection hmax
      have hm0 : m ≠ 0 := by rw [← hd1m]; exact hd1
      rcases h24 hm0 with h | ⟨-, h, -⟩
      · rw [hd1m]; exact h
      · rw [h]
    · refine h23 ?_
      unfold bsPrepare
      rw [if_neg]
      · exact hl
      · rw [hlast, e1, hops]
        show ¬ (false = true ∨ XR.eq (fin d1) (fin d1) = false)
        simp [XR.eq]

/-- Non-vacuity: the default checker, `idSys`, the first try of a new stepper. -/
example (ops' : StateOps XR (List XR)) (heap : Heap XR (List XR) Unit) (ε a d m : ℝ) (hε : 0 ≤ ε) (hd : d = -1 / 10) (hm : m = -1 / 2) (l : XR) :
    (bsTryTwice (xrBs ε m a) true idSys (.user 0) (fin 0) (fin d) ⟨BsCtl.construct l, heap⟩).Sat
      (fun r _ => ∀ r', r.2 = some r' → ∃ d1 d2 : ℝ, r.1.dt = fin d1 ∧ r'.dt = fin d2 ∧ |d2| ≤ |d1|) (fun _ _ => True) True :=
  bulirsch_stoer_no_growth_after_rejection (W := Unit) (xrBs ε m a) XR.pow ε d m rfl (XR.pow_ok _) hε
    (fun _ _ _ _ => XR.default_nonneg _ _ _ _ _ _ _ _ _ _) rfl
    (Or.inr (by rw [hd, hm]; norm_num)) (by rw [hd]; norm_num) true idSys_defined (.user 0) (fin 0)
    ⟨BsCtl.construct l, heap⟩ (BsCtl.reset_valid ⟨0, true, false, l⟩)

end Verif
