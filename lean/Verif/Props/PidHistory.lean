import Verif.Props.PidAccept

/-!
# C57: what the step adjuster of the controlled Adams stepper remembers

The acceptance tests of `Props/PidAccept.lean` speak of the members of the adjuster.  Here these are related to the calls made so far, for every history of calls
that begins with a new adjuster.
-/

namespace Verif
set_option linter.unusedSectionVars false

/-- a call of `adjust_stepsize` -/
structure PidCall where
  steps : ℕ
  dt : ℝ
  err : List ℝ
  x : List ℝ
  dxdt : List ℝ

variable (eps absTol relTol dtmax : ℝ) (coef : ℕ → ℝ)

/-- the error in units of the tolerance, by component -/
noncomputable def PidCall.scaled (c : PidCall) : List ℝ := relErrorLoop (realOps eps) absTol relTol 1 |c.dt| c.err c.x c.dxdt

/-- the members after a history of calls (the latest first) that begins with `s` -/
noncomputable def pidAfter (s : PidState ℝ) : List PidCall → PidState ℝ
  | [] => s
  | c :: l => (pidAdjust (realOps eps) (realPid absTol relTol dtmax coef) c.steps c.dt c.err c.x c.dxdt (pidAfter s l)).2.2

/-- the step size that the call `c` proposes after the history `l` -/
noncomputable def pidProposal (s : PidState ℝ) (c : PidCall) (l : List PidCall) : ℝ :=
  (pidAdjust (realOps eps) (realPid absTol relTol dtmax coef) c.steps c.dt c.err c.x c.dxdt (pidAfter eps absTol relTol dtmax coef s l)).1

/-- is the step of the call `c` accepted after the history `l`?  By `controlled_adams_try_step` the stepper accepts iff the ratio is at least 0.9. -/
def PidAccepted (s : PidState ℝ) (c : PidCall) (l : List PidCall) : Prop := 9 / 10 ≤ pidProposal eps absTol relTol dtmax coef s c l / c.dt

open Classical in
/-- the number of accepted steps since the last rejection -/
noncomputable def acceptedInRow (s : PidState ℝ) : List PidCall → ℕ
  | [] => 0
  | c :: l => if PidAccepted eps absTol relTol dtmax coef s c l then acceptedInRow s l + 1 else 0

variable {eps absTol relTol dtmax coef}

theorem pidAccepted_iff {s : PidState ℝ} {c : PidCall} {l : List PidCall} (hdt : c.dt ≠ 0) :
    PidAccepted eps absTol relTol dtmax coef s c l ↔ 9 / 10 ≤ pidLimit (realOps eps) (realPid absTol relTol dtmax coef) c.dt
      (pidRatio (realOps eps) (realPid absTol relTol dtmax coef)
        (pidErrors (realOps eps) (realPid absTol relTol dtmax coef) c.steps (pidAfter eps absTol relTol dtmax coef s l).init
          (fun i => if i = 0 then c.scaled eps absTol relTol else (pidAfter eps absTol relTol dtmax coef s l).err i)
          (fun i => if i = 0 then c.dt else (pidAfter eps absTol relTol dtmax coef s l).dts i))) := by
  unfold PidAccepted pidProposal pidAdjust PidCall.scaled
  have e1 : (lit 1 : ℝ) = 1 := by simp [lit]
  have e2 : (lit 1 : ℝ) * (realOps eps).abs c.dt = |c.dt| := by rw [e1, one_mul]; rfl
  dsimp only
  rw [e2, e1, mul_div_cancel_left₀ _ hdt]
  rfl

/-- the members after one more call -/
theorem pidAfter_cons {s : PidState ℝ} {c : PidCall} {l : List PidCall} (hdt : c.dt ≠ 0) :
    (PidAccepted eps absTol relTol dtmax coef s c l →
      (pidAfter eps absTol relTol dtmax coef s (c :: l)).init = (pidAfter eps absTol relTol dtmax coef s l).init + 1 ∧
      (pidAfter eps absTol relTol dtmax coef s (c :: l)).err 1 = c.scaled eps absTol relTol ∧
      (pidAfter eps absTol relTol dtmax coef s (c :: l)).dts 1 = c.dt ∧
      (pidAfter eps absTol relTol dtmax coef s (c :: l)).err 2 = (pidAfter eps absTol relTol dtmax coef s l).err 1 ∧
      (pidAfter eps absTol relTol dtmax coef s (c :: l)).dts 2 = (pidAfter eps absTol relTol dtmax coef s l).dts 1) ∧
    (¬ PidAccepted eps absTol relTol dtmax coef s c l → (pidAfter eps absTol relTol dtmax coef s (c :: l)).init = 0) := by
  rw [pidAccepted_iff hdt]
  have e1 : (lit 1 : ℝ) = 1 := by simp [lit]
  have e2 : (lit 1 : ℝ) * (realOps eps).abs c.dt = |c.dt| := by rw [e1, one_mul]; rfl
  have e3 : (pidThreshold : ℝ) = 9 / 10 := by norm_num [pidThreshold, lit]
  have hab : (realPid absTol relTol dtmax coef).absTol = absTol := rfl
  have hre : (realPid absTol relTol dtmax coef).relTol = relTol := rfl
  have hcons : pidAfter eps absTol relTol dtmax coef s (c :: l) =
    (pidAdjust (realOps eps) (realPid absTol relTol dtmax coef) c.steps c.dt c.err c.x c.dxdt (pidAfter eps absTol relTol dtmax coef s l)).2.2 := rfl
  rw [hcons]
  unfold pidAdjust PidCall.scaled
  dsimp only
  rw [e2, e1, e3, hab, hre]
  generalize (pidLimit (realOps eps) _ _ _ : ℝ) = r
  constructor
  · intro h
    rw [show (realOps eps).le (9 / 10) r = true from decide_eq_true h]
    refine ⟨rfl, rfl, rfl, rfl, rfl⟩
  · intro h
    rw [show (realOps eps).le (9 / 10) r = false from decide_eq_false h]
    rfl

/-- C57, the memory: after any history of calls the adjuster uses the filter iff at least two steps in a row were accepted, and then the stored errors and step
sizes are those of the last two calls. -/
theorem pid_history (s : PidState ℝ) (h0 : s.init = 0) (l : List PidCall) (hl : ∀ c ∈ l, c.dt ≠ 0) :
    (pidAfter eps absTol relTol dtmax coef s l).init = acceptedInRow eps absTol relTol dtmax coef s l ∧
      (∀ c1, l[0]? = some c1 → 1 ≤ acceptedInRow eps absTol relTol dtmax coef s l →
        (pidAfter eps absTol relTol dtmax coef s l).err 1 = c1.scaled eps absTol relTol ∧ (pidAfter eps absTol relTol dtmax coef s l).dts 1 = c1.dt) ∧
      ∀ c2, l[1]? = some c2 → 2 ≤ acceptedInRow eps absTol relTol dtmax coef s l →
        (pidAfter eps absTol relTol dtmax coef s l).err 2 = c2.scaled eps absTol relTol ∧ (pidAfter eps absTol relTol dtmax coef s l).dts 2 = c2.dt := by
  induction l with
  | nil => exact ⟨h0, fun _ h => by simp at h, fun _ h => by simp at h⟩
  | cons c l ih =>
    obtain ⟨i1, i2, i3⟩ := ih fun c' hc => hl c' (List.mem_cons_of_mem _ hc)
    obtain ⟨ha, hr⟩ := pidAfter_cons (eps := eps) (absTol := absTol) (relTol := relTol) (dtmax := dtmax) (coef := coef) (s := s) (l := l)
      (hl c List.mem_cons_self)
    rw [acceptedInRow]
    split
    · rename_i h
      obtain ⟨a1, a2, a3, a4, a5⟩ := ha h
      refine ⟨by rw [a1, i1], ?_, ?_⟩
      · intro c1 h1 _
        simp only [List.getElem?_cons_zero, Option.some.injEq] at h1
        subst h1
        exact ⟨a2, a3⟩
      · intro c2 h2 hn
        rw [a4, a5]
        exact i2 c2 (by simpa using h2) (by omega)
    · rename_i h
      exact ⟨hr h, fun _ _ h => by omega, fun _ _ h => by omega⟩

/-- C57, after a rejection: the next call tests the error of its own step only, whatever happened before. -/
theorem pid_after_rejection (s : PidState ℝ) (c r : PidCall) (l : List PidCall) (hr : r.dt ≠ 0) (hrej : ¬ PidAccepted eps absTol relTol dtmax coef s r l)
    (hdt : c.dt ≠ 0) (hmax : (1 + Real.pi / 2) * |c.dt| < dtmax) (hne : c.scaled eps absTol relTol ≠ [])
    (hpos : ∀ v ∈ c.scaled eps absTol relTol, 0 < v) :
    PidAccepted eps absTol relTol dtmax coef s c (r :: l) ↔ ∀ e ∈ c.scaled eps absTol relTol, e ^ ((7 / 10 : ℝ) / (c.steps + 1)) ≤ acceptBound := by
  have h0 := (pidAfter_cons (eps := eps) (absTol := absTol) (relTol := relTol) (dtmax := dtmax) (coef := coef) (s := s) (l := l) hr).2 hrej
  exact pid_startup_accept_iff eps absTol relTol dtmax coef c.steps c.dt hdt hmax c.err c.x c.dxdt _ (by rw [h0]; omega) hne hpos

/-- C57, with at least two accepted steps before: the filtered error of the last three steps decides, each in units of the tolerance. -/
theorem pid_filter_history (s : PidState ℝ) (h0 : s.init = 0) (c c1 c2 : PidCall) (l : List PidCall) (hl : ∀ c ∈ l, c.dt ≠ 0)
    (hacc : PidAccepted eps absTol relTol dtmax coef s c1 (c2 :: l) ∧ PidAccepted eps absTol relTol dtmax coef s c2 l)
    (hd : c.dt ≠ 0 ∧ c1.dt ≠ 0 ∧ c2.dt ≠ 0) (hmax : (1 + Real.pi / 2) * |c.dt| < dtmax) (hne : c.err ≠ [])
    (hlen : (c.scaled eps absTol relTol).length = c.err.length ∧ (c1.scaled eps absTol relTol).length = c.err.length ∧
      (c2.scaled eps absTol relTol).length = c.err.length)
    (hpos : (∀ v ∈ c.scaled eps absTol relTol, 0 < v) ∧ (∀ v ∈ c1.scaled eps absTol relTol, 0 < v) ∧ (∀ v ∈ c2.scaled eps absTol relTol, 0 < v)) :
    PidAccepted eps absTol relTol dtmax coef s c (c1 :: c2 :: l) ↔
      ∀ (i : ℕ) (e1 e2 e3 : ℝ), (c.scaled eps absTol relTol)[i]? = some e1 → (c1.scaled eps absTol relTol)[i]? = some e2 →
        (c2.scaled eps absTol relTol)[i]? = some e3 → filteredError coef (c.steps + 1) e1 e2 e3 |c.dt / c1.dt| |c1.dt / c2.dt| ≤ acceptBound := by
  have hrow : 2 ≤ acceptedInRow eps absTol relTol dtmax coef s (c1 :: c2 :: l) := by
    rw [acceptedInRow, if_pos hacc.1, acceptedInRow, if_pos hacc.2]
    omega
  obtain ⟨i1, i2, i3⟩ := pid_history (eps := eps) (absTol := absTol) (relTol := relTol) (dtmax := dtmax) (coef := coef) s h0 (c1 :: c2 :: l) (by
    intro c' hc'
    simp only [List.mem_cons] at hc'
    rcases hc' with rfl | rfl | h
    · exact hd.2.1
    · exact hd.2.2
    · exact hl _ h)
  obtain ⟨e1, d1⟩ := i2 c1 rfl (by omega)
  obtain ⟨e2, d2⟩ := i3 c2 rfl hrow
  have := pid_accept_iff eps absTol relTol dtmax coef c.steps c.dt hd.1 hmax c.err c.x c.dxdt (pidAfter eps absTol relTol dtmax coef s (c1 :: c2 :: l))
    (by rw [i1]; exact hrow) hne (by rw [e1, e2]; exact hlen) (by rw [e1, e2]; exact hpos) (by rw [d1, d2]; exact hd.2)
  rw [e1, e2, d1, d2] at this
  exact this

/-- Non-vacuity of `pid_filter_history`: with one component, tolerance 1 and error 1 in the first calls, both are accepted. -/
example (s : PidState ℝ) (h0 : s.init = 0) (c : PidCall) (hc : c = ⟨3, 1, [1], [0], [0]⟩) :
    c.scaled eps 1 0 = [1] ∧ PidAccepted eps 1 0 3 coef s c [] ∧ PidAccepted eps 1 0 3 coef s c [c] := by
  have hs : c.scaled eps 1 0 = [1] := by subst hc; simp [PidCall.scaled, relErrorLoop, relError, realOps]
  have hdt : c.dt = 1 := by rw [hc]
  have hmax : (1 + Real.pi / 2) * |c.dt| < 3 := by have := Real.pi_lt_d2; rw [hdt, abs_one]; linarith
  have hb : ∀ e ∈ c.scaled eps 1 0, e ^ ((7 / 10 : ℝ) / (c.steps + 1)) ≤ acceptBound := by
    rw [hs]
    intro e he
    simp only [List.mem_singleton] at he
    subst he
    rw [Real.one_rpow]
    exact one_lt_acceptBound.le
  have hpos : ∀ v ∈ c.scaled eps 1 0, 0 < v := by rw [hs]; simp
  have hne : c.scaled eps 1 0 ≠ [] := by rw [hs]; simp
  have h1 : PidAccepted eps 1 0 3 coef s c [] :=
    (pid_startup_accept_iff eps 1 0 3 coef c.steps c.dt (by rw [hdt]; norm_num) hmax c.err c.x c.dxdt s (by omega) hne hpos).2 hb
  refine ⟨hs, h1, ?_⟩
  have hi := ((pidAfter_cons (eps := eps) (absTol := 1) (relTol := 0) (dtmax := 3) (coef := coef) (s := s) (l := []) (c := c) (by rw [hdt]; norm_num)).1 h1).1
  exact (pid_startup_accept_iff eps 1 0 3 coef c.steps c.dt (by rw [hdt]; norm_num) hmax c.err c.x c.dxdt _ (by rw [hi]; show s.init + 1 < 2; omega) hne hpos).2 hb

end Verif
