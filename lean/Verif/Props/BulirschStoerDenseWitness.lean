import Verif.Props.BulirschStoerPoly
import Verif.Props.BulirschStoerWitness

/-!
# Runs of `bulirsch_stoer_dense_out` on concrete data

Exact rational arithmetic; the powers, which only influence the step sizes and the choice of the order, are replaced by a function with the monotonicity and the
limits of a power: `a^b ≈ 1 + b (a - 1)` for `a ≥ 1` and the reciprocal for `a < 1`.  The runs are evaluated by the kernel.
-/

namespace Verif
set_option linter.unusedSectionVars false
variable {K V W : Type} [Add K] [Sub K] [Mul K] [Div K] [Neg K] [IntCast K] [StateOps K V]

/-- a step of which the first try is successful -/
def bsdOneTry (P : BsdParams K V) (sys : Sys K V W) : M (BsdState K V W) (K × K) := do
  bsdBegin sys
  let r ← bsdBody P sys (false, 0)
  if r.1 then do
    M.modify BsdState.toggle
    let s ← M.get
    pure (s.tLast, s.t)
  else fun _ => .div

/-- `m` and `m'` agree where `m` does not diverge -/
def Approx {S α : Type} (m m' : M S α) : Prop := ∀ s, m s ≠ .div → m' s = m s

theorem Approx.refl {S α : Type} (m : M S α) : Approx m m := fun _ _ => rfl

theorem Approx.bind {S α β : Type} {m m' : M S α} {f f' : α → M S β} (h : Approx m m') (hf : ∀ a, Approx (f a) (f' a)) : Approx (m >>= f) (m' >>= f') := by
  intro s hs
  rw [M.bind_apply] at hs ⊢
  rw [M.bind_apply]
  cases hm : m s with
  | ok a s' =>
    rw [hm] at hs
    rw [h s (by rw [hm]; exact fun h => nomatch h), hm]
    exact hf a s' hs
  | err e s' => rw [h s (by rw [hm]; exact fun h => nomatch h), hm]
  | ub => rw [h s (by rw [hm]; exact fun h => nomatch h), hm]
  | div => rw [hm] at hs; exact absurd rfl hs

theorem bsdOneTry_approx (P : BsdParams K V) (sys : Sys K V W) : Approx (bsdOneTry P sys) (bsdDoStep P sys) := by
  unfold bsdOneTry bsdDoStep
  refine Approx.bind (Approx.refl _) fun _ => ?_
  intro s hs
  rw [M.bind_apply] at hs ⊢
  rw [M.bind_apply, whileM_true rfl, M.bind_apply]
  cases hb : bsdBody P sys (false, 0) s with
  | ok r s' =>
    rw [hb] at hs
    obtain ⟨ok, c⟩ := r
    cases ok with
    | false => exact absurd rfl hs
    | true =>
      dsimp only
      rw [whileM_stop rfl]
      rfl
  | err e s' => rfl
  | ub => rfl
  | div => rfl

/-- a stand-in for `pow` -/
def roughPow (a b : ℚ) : ℚ := if 1 ≤ a then 1 + b * (a - 1) else 1 / (1 + b * (1 / a - 1))

/-- the stepper with tolerance 1: the checker returns the absolute value of the error estimate -/
def bsdRat : BsdParams ℚ ℚ := ⟨⟨{ bsRatOps with pow := roughPow }, ⟨fun _ _ e _ => (e, |e|)⟩, 0⟩, false⟩

/-- memory filled with zeros -/
def bsdZero : BsdState ℚ ℚ Unit :=
  ⟨⟨0, false, false, 0⟩, none, 0, 0, 0, 0, 0, 0, 0, fun _ => 0, fun _ => 0, fun _ _ => 0, fun _ _ => 0, ()⟩

/-- the system `x' = b t^r` -/
def powerSys (b : ℚ) (r : ℕ) : Sys ℚ ℚ Unit := fun _ t => pure (b * t ^ r)

/-- `initialize( 0 , 0 , 1 )` and a step, three times, with the systems `x' = 10^10 t^8`, `x' = 10^12 t^12` and `x' = 10^16 t^16` -/
noncomputable def threeProblems : M (BsdState ℚ ℚ Unit) (ℚ × ℚ) := do
  bsdInitialize 0 0 1
  let _ ← bsdDoStep bsdRat (powerSys (10 ^ 10) 8)
  bsdInitialize 0 0 1
  let _ ← bsdDoStep bsdRat (powerSys (10 ^ 12) 12)
  bsdInitialize 0 0 1
  bsdDoStep bsdRat (powerSys (10 ^ 16) 16)

@[inherit_doc threeProblems] def threeProblems' : M (BsdState ℚ ℚ Unit) (ℚ × ℚ) := do
  bsdInitialize 0 0 1
  let _ ← bsdOneTry bsdRat (powerSys (10 ^ 10) 8)
  bsdInitialize 0 0 1
  let _ ← bsdOneTry bsdRat (powerSys (10 ^ 12) 12)
  bsdInitialize 0 0 1
  bsdOneTry bsdRat (powerSys (10 ^ 16) 16)

/-- is it undefined behaviour? -/
def Res.isUb {S α : Type} : Res S α → Bool
  | .ub => true
  | _ => false

/-- C24: one stepper used for three problems one after the other reads `m_cost[9]`, beyond the end of the table: `initialize` keeps the order, which the first
two problems have raised to 7, and in the first step after `initialize` convergence is tested in all stages, up to the stage 8 = `m_k_max`, where the cost of
stage 9 is looked up. -/
theorem bsd_reinitialize_out_of_bounds : threeProblems (bsdConstruct bsdZero) = .ub := by
  have h : Res.isUb (threeProblems' (bsdConstruct bsdZero)) = true := by decide +kernel
  have h' : threeProblems' (bsdConstruct bsdZero) = .ub := by
    cases hr : threeProblems' (bsdConstruct bsdZero) with
    | ub => rfl
    | ok _ _ => rw [hr] at h; cases h
    | err _ _ => rw [hr] at h; cases h
    | div => rw [hr] at h; cases h
  have ha : Approx threeProblems' threeProblems :=
    Approx.bind (Approx.refl _) fun _ => Approx.bind (bsdOneTry_approx _ _) fun _ => Approx.bind (Approx.refl _) fun _ =>
      Approx.bind (bsdOneTry_approx _ _) fun _ => Approx.bind (Approx.refl _) fun _ => bsdOneTry_approx _ _
  rw [ha _ (by rw [h']; exact fun h => nomatch h), h']

/-- the system `x' = x` -/
def growth : Sys ℚ ℚ Unit := fun x _ => pure x

/-- the times of a step of `x' = x`, `x(0) = 1` with step size 1, the states before and after, and `calc_state` at both times and in the middle -/
noncomputable def endpoints : M (BsdState ℚ ℚ Unit) ((ℚ × ℚ) × (ℚ × ℚ) × (ℚ × ℚ)) := do
  bsdInitialize 1 0 1
  let r ← bsdDoStep bsdRat growth
  let x0 ← bsdCalcState r.1
  let x1 ← bsdCalcState r.2
  let s ← M.get
  pure (r, (s.old, s.cur), (x0, x1))

@[inherit_doc endpoints] def endpoints' : M (BsdState ℚ ℚ Unit) ((ℚ × ℚ) × (ℚ × ℚ) × (ℚ × ℚ)) := do
  bsdInitialize 1 0 1
  let r ← bsdOneTry bsdRat growth
  let x0 ← bsdCalcState r.1
  let x1 ← bsdCalcState r.2
  let s ← M.get
  pure (r, (s.old, s.cur), (x0, x1))

/-- the value of a computation that returns -/
def Res.val {S α : Type} : Res S α → Option α
  | .ok a _ => some a
  | _ => none

theorem Res.of_val {S α : Type} {r : Res S α} {a : α} (h : r.val = some a) : ∃ s, r = .ok a s := by
  cases r with
  | ok b s => cases h; exact ⟨s, rfl⟩
  | err _ _ => cases h
  | ub => cases h
  | div => cases h

/-- C60: the interpolation does not reproduce the states at the ends of the step.  For `x' = x`, `x(0) = 1` and a step of size 1, the state before is 1
and `calc_state( 0 )` is `10357/10368`; the state after is `42241/15552` and `calc_state( 1 )` is `3125/1152`. -/
theorem bsd_interpolation_differs_at_ends :
    ∃ s, endpoints (bsdConstruct bsdZero) = .ok ((0, 1), (1, 42241 / 15552), (10357 / 10368, 3125 / 1152)) s := by
  have h : (endpoints' (bsdConstruct bsdZero)).val = some ((0, 1), (1, 42241 / 15552), (10357 / 10368, 3125 / 1152)) := by decide +kernel
  obtain ⟨s, h⟩ := Res.of_val h
  have ha : Approx endpoints' endpoints :=
    Approx.bind (Approx.refl _) fun _ => Approx.bind (bsdOneTry_approx _ _) fun _ => Approx.refl _
  exact ⟨s, by rw [ha _ (by rw [h]; exact fun h => nomatch h), h]⟩

/-- Non-vacuity of `bulirsch_stoer_dense_step` and `bulirsch_stoer_dense_values`: the members after `initialize`. -/
example : BsdOrder (bsdConstruct bsdZero).ctl ∧ ∀ k, (bsdConstruct bsdZero).kFinal = some k → k ≤ 8 :=
  ⟨⟨by decide, by decide, fun _ => by decide⟩, fun _ h => nomatch h⟩

/-- Non-vacuity of `bulirsch_stoer_dense_do_step`: the system `x' = x`; by `bsd_interpolation_differs_at_ends` the step returns. -/
example : growth.Defined ∧ Returns growth (fun x _ => x) ∧ BsdFresh (W := Unit) (fun x _ => x) (bsdConstruct bsdZero) :=
  ⟨fun _ _ _ => by simp [growth, M.pure_apply], fun _ _ _ _ _ h => by simp only [growth, M.pure_apply] at h; cases h; rfl, fun h => nomatch h⟩

/-- Non-vacuity of `bsd_interpolation_ends_partial`: the system `x' = 3`. -/
example : (powerSys 3 0).Defined ∧ Returns (powerSys 3 0) (fun _ _ => 3) ∧ BsdFresh (W := Unit) (fun _ _ => (3 : ℚ)) (bsdConstruct bsdZero) ∧
    ((do bsdInitialize 1 0 1; bsdOneTry bsdRat (powerSys 3 0)) (bsdConstruct bsdZero)).val = some (0, 1) :=
  ⟨fun _ _ _ => by simp [powerSys, M.pure_apply], fun _ _ _ _ _ h => by simp only [powerSys, M.pure_apply] at h; cases h; simp, (fun h => nomatch h),
    by decide +kernel⟩

end Verif
