import Verif.Props.DenseTimes
import Verif.Lemmas.RunEval

/-!
# C11: integrate_n_steps with a dense output stepper
-/

namespace Verif
variable {Q S : Type}

section
variable {K : Type} [Field K] [LinearOrder K] [IsStrictOrderedRing K]

theorem InsideStep.append {p : PureDense Q S K} {eps dt : K} {w : Log S K} {y : S} {τ : K}
    (h : InsideStep p eps dt w y τ) (l : Log S K) : InsideStep p eps dt (w ++ l) y τ := by
  obtain ⟨q, q', pre, post, h1, h2⟩ := h
  exact ⟨q, q', pre, post ++ l, by rw [h1]; simp, h2⟩

theorem InsideStep.weaken {p : PureDense Q S K} {eps eps' dt : K} {w : Log S K} {y : S} {τ : K}
    (h : InsideStep p eps dt w y τ) (he : eps ≤ eps') : InsideStep p eps' dt w y τ := by
  obtain ⟨q, q', pre, post, h1, h2, h3, h4, h5⟩ := h
  rw [not_beyond_iff] at h4 h5
  exact ⟨q, q', pre, post, h1, h2, h3, (not_beyond_iff _ _ _ _).mpr (h4.trans he),
    (not_beyond_iff _ _ _ _).mpr (h5.trans he)⟩

theorem latestStep_snoc (p : PureDense Q S K) (w : Log S K) {q q' : Q} (h : p.doStep q = .ok q') :
    LatestStep p (w ++ [.step (p.curState q) (p.curTime q) (p.curDt q)]) q q' :=
  ⟨w, [], by simp, by simp, h⟩

/-- how a step moves the time, in terms of the direction of integration -/
theorem advance_sign {p : PureDense Q S K} (hp : DenseContract p) {dt : K} {q q' : Q}
    (hd : SameDir dt (p.curDt q)) (hq : p.doStep q = .ok q') :
    SameDir dt (p.curDt q') ∧ 0 < dirSign dt * (p.curTime q' - p.curTime q) ∧
      dirSign dt * (p.curTime q' - p.curTime q) = |p.curTime q' - p.curTime q| ∧
      dirSign dt * (p.curTime q' - p.curTime q) ≤ dirSign dt * p.curDt q := by
  obtain ⟨a1, a2⟩ := hp.advance q q' hq hd.ne_zero
  have e1 := dirSign_mul_self (p.curDt q)
  have e2 := dirSign_mul_self (p.curTime q' - p.curTime q)
  rw [← dirSign_of_sameDir a1, ← dirSign_of_sameDir hd] at e2
  rw [← dirSign_of_sameDir hd] at e1
  have hne := (hd.trans a1).ne_zero
  refine ⟨hd.trans (hp.dir _ _ hq hd.ne_zero), ?_, e2, by rw [e1, e2]; exact a2⟩
  rw [e2]; exact abs_pos.mpr hne

/-- the next step size as set by `initialize( ... , end - current_time )` -/
theorem init_rest {p : PureDense Q S K} (hp : DenseContract p) {eps dt t1 : K} (hdt : dt ≠ 0)
    (heps : 0 ≤ eps) {q q' : Q} (hfar : eps < dirSign dt * (t1 - p.curTime q))
    (hq : p.init q (p.curState q) (p.curTime q) (t1 - p.curTime q) = .ok q') :
    SameDir dt (p.curDt q') ∧ p.curTime q' = p.curTime q ∧ p.curState q' = p.curState q ∧
      p.curDt q' = t1 - p.curTime q := by
  have e3 := hp.init_dt _ _ _ _ _ hq
  refine ⟨?_, hp.init_time _ _ _ _ _ hq, hp.init_state _ _ _ _ _ hq, e3⟩
  rw [e3, sameDir_iff hdt]; linarith

/-- Loop invariant of the main loop. -/
structure NSInv (p : PureDense Q S K) (eps dt : K) (q : Q) (x : S) (t0 : K) (n : ℕ)
    (w : Log S K) (s : DenseState Q S K) (w' new : Log S K) : Prop where
  log : w' = w ++ new
  obs_times : new.observations.map Prod.snd = (List.range s.step).map fun k : ℕ => t0 + k * dt
  time : s.time = t0 + s.step * dt
  le : s.step ≤ n
  inside : ∀ b ∈ new.observations, InsideStep p eps dt new b.1 b.2
  state : s.x = (new.observations.getLast?.map Prod.fst).getD x
  dir : SameDir dt (p.curDt s.q)
  within : 0 ≤ dirSign dt * (t0 + n * dt - p.curTime s.q)
  latest : (s.step = 0 ∧ p.init q x t0 dt = .ok s.q) ∨
    (∃ q1, LatestStep p new q1 s.q ∧ ¬ Beyond eps dt (p.curTime q1) s.time)

/-- The situation at an exception. -/
def NSErr (p : PureDense Q S K) (eps dt t0 : K) (n : ℕ) (w w' : Log S K) : Prop :=
  ∃ new m, w' = w ++ new ∧ m ≤ n ∧
    new.observations.map Prod.snd = (List.range m).map (fun k : ℕ => t0 + k * dt) ∧
    ∀ b ∈ new.observations, InsideStep p eps dt new b.1 b.2

theorem NSInv.toErr {p : PureDense Q S K} {eps dt : K} {q : Q} {x : S} {t0 : K} {n : ℕ}
    {w : Log S K} {s : DenseState Q S K} {w' new : Log S K} (h : NSInv p eps dt q x t0 n w s w' new)
    (l : Log S K) (hl : l.observations = []) : NSErr p eps dt t0 n w (w' ++ l) := by
  refine ⟨new ++ l, s.step, by rw [h.log]; simp, h.le, ?_, ?_⟩
  · rw [observations_append, hl, List.append_nil]; exact h.obs_times
  · rw [observations_append, hl, List.append_nil]
    exact fun b hb => (h.inside b hb).append l

/-- the body of the observation loop (lines 115-123) -/
theorem nsteps_observe_sat {p : PureDense Q S K} (hp : DenseContract p) {eps dt : K} (heps : 0 ≤ eps)
    (hdt : dt ≠ 0) {q : Q} {x : S} {t0 : K} {n : ℕ} {w : Log S K} {s : DenseState Q S K} {w1 : Log S K}
    (hI : ∃ new, NSInv p eps dt q x t0 n w s w1 new) :
    (whileM
        (fun s : DenseState Q S K => (TimeArith.exact K eps).lessWithSign s.time
          ((loggedDense p).curTime s.q) ((loggedDense p).curDt s.q))
        (fun s => do
          let x ← (loggedDense p).calcState s.q s.time
          record x s.time
          return { s with x := x, step := s.step + 1,
                          time := (TimeArith.exact K eps).add t0
                            ((TimeArith.exact K eps).nmul (s.step + 1) dt) })
        s w1).Sat
      (fun s' w' => (∃ new, NSInv p eps dt q x t0 n w s' w' new) ∧ s'.q = s.q ∧ s.step ≤ s'.step ∧
        w'.stepCount = w1.stepCount ∧ dirSign dt * (p.curTime s.q - s'.time) ≤ eps)
      (fun _ w' => NSErr p eps dt t0 n w w') False := by
  refine (whileM_sat_total (W := Log S K)
    (I := fun s' w' => (∃ new, NSInv p eps dt q x t0 n w s' w' new) ∧ s'.q = s.q ∧ s.step ≤ s'.step ∧
      w'.stepCount = w1.stepCount)
    (E := fun _ w' => NSErr p eps dt t0 n w w') (D := False)
    (μ := fun s' _ => n - s'.step) ?_ ⟨hI, rfl, le_rfl, rfl⟩).mono ?_ (fun _ _ h => h) id
  · rintro ⟨q1, x1, time, step, real⟩ w2 ⟨⟨new, h⟩, hq1, hle, hcnt⟩ hc
    simp only at hq1 hle hcnt
    subst hq1
    have hdir := h.dir
    have ht := h.time
    have hw := h.within
    simp only at hdir ht hw
    have hc' : eps < dirSign dt * (p.curTime s.q - time) := by
      rw [dirSign_of_sameDir hdir]; exact (exact_less _ _ _ _).mp hc
    have e1 := dirSign_mul_self dt
    have hd := abs_pos.mpr hdt
    have hlt : step < n := by
      by_contra hge
      have h1 : (n : K) ≤ step := by exact_mod_cast Nat.not_lt.mp hge
      have h2 : (n : K) * |dt| ≤ step * |dt| := mul_le_mul_of_nonneg_right h1 hd.le
      have h3 : dirSign dt * (t0 + n * dt - p.curTime s.q) + dirSign dt * (p.curTime s.q - time) =
        n * (dirSign dt * dt) - step * (dirSign dt * dt) := by rw [ht]; ring
      rw [e1] at h3; linarith
    apply Res.Sat.bind
    apply logCall_sat
    · intro y hy
      rw [record_bind]
      have hobs : Log.observations (new ++ [Event.calc time] ++ [Event.obs y time]) =
          new.observations ++ [(y, time)] := by
        rw [observations_append, observations_append]; simp [Log.observations]
      refine ⟨⟨⟨new ++ [.calc time] ++ [.obs y time], ?_, ?_, ?_, hlt, ?_, ?_, hdir, hw, ?_⟩, rfl,
        by simp only; omega, ?_⟩, by simp only; omega⟩
      · rw [h.log]; simp
      · rw [hobs, List.map_append, h.obs_times, List.range_succ, List.map_append]; simp [ht]
      · simp [TimeArith.exact]
      · rw [hobs]
        intro b hb
        rcases List.mem_append.mp hb with hb | hb
        · rw [List.append_assoc]; exact (h.inside b hb).append _
        · simp only [List.mem_singleton] at hb
          subst hb
          rcases h.latest with ⟨h0, hinit⟩ | ⟨q2, hls, hb2⟩
          · exfalso
            have ht0 := hp.init_time _ _ _ _ _ hinit
            simp only at h0 ht0
            rw [ht0, ht, h0] at hc'
            simp at hc'; linarith
          · refine ⟨q2, _, new, [], by simp, hls, hy, hb2, ?_⟩
            rw [not_beyond_iff]
            have : dirSign dt * (time - p.curTime s.q) = - (dirSign dt * (p.curTime s.q - time)) := by ring
            simp only; linarith
      · rw [hobs]; simp
      · right
        rcases h.latest with ⟨h0, hinit⟩ | ⟨q2, hls, hb2⟩
        · exfalso
          have ht0 := hp.init_time _ _ _ _ _ hinit
          simp only at h0 ht0
          rw [ht0, ht, h0] at hc'
          simp at hc'; linarith
        · refine ⟨q2, ?_, ?_⟩
          · rw [List.append_assoc]; exact hls.append (by simp [Event.isPassive])
          · rw [not_beyond_iff] at hb2 ⊢
            simp only [TimeArith.exact] at hb2 ⊢
            have : dirSign dt * (p.curTime q2 - (t0 + ((step + 1 : ℕ) : K) * dt)) =
              dirSign dt * (p.curTime q2 - time) - dirSign dt * dt := by rw [ht]; push_cast; ring
            rw [this, e1]; linarith
      · rw [stepCount_append, stepCount_append, hcnt]; simp [Log.stepCount]
    · intro e _
      exact h.toErr _ (by simp [Log.observations])
  · rintro s' w' ⟨⟨⟨new, h⟩, h2, h3, h4⟩, hc⟩
    refine ⟨⟨new, h⟩, h2, h3, h4, ?_⟩
    rw [dirSign_of_sameDir h.dir, ← h2]
    exact (exact_less_false _ _ _ _).mp hc

/-- The body of the main loop as a function (lines 113-137 of `integrate_n_steps.hpp`). -/
noncomputable abbrev nstepsBody (A : TimeArith K) (st : DenseStepper Q (Log S K) S K) (start dt end_ : K)
    (s : DenseState Q S K) : M (Log S K) (DenseState Q S K) := do
  let s ← whileM
    (fun s : DenseState Q S K => A.lessWithSign s.time (st.curTime s.q) (st.curDt s.q))
    (fun s => do
      let x ← st.calcState s.q s.time
      record x s.time
      return { s with x := x, step := s.step + 1,
                      time := A.add start (A.nmul (s.step + 1) dt) })
    s
  if A.lessWithSign (A.add (st.curTime s.q) (st.curDt s.q)) end_ (st.curDt s.q) then do
    let q ← st.doStep s.q
    return { s with q := q }
  else if A.lessWithSign (st.curTime s.q) end_ (st.curDt s.q) then do
    let q ← st.init s.q (st.curState s.q) (st.curTime s.q)
      (A.sub end_ (st.curTime s.q))
    let q ← st.doStep q
    return { s with q := q }
  else return s

/-- One iteration of the main loop. -/
theorem nsteps_body_sat {p : PureDense Q S K} (hp : DenseContract p) {eps dt : K} (heps : 0 ≤ eps)
    (hdt : dt ≠ 0) {q : Q} {x : S} {t0 : K} {n : ℕ} {w : Log S K} {s : DenseState Q S K} {w1 : Log S K}
    (hI : ∃ new, NSInv p eps dt q x t0 n w s w1 new) :
    (nstepsBody (TimeArith.exact K eps) (loggedDense p) t0 dt (t0 + n * dt) s w1).Sat
      (fun s' w' => (∃ new, NSInv p eps dt q x t0 n w s' w' new) ∧ s.step ≤ s'.step ∧
        ((∃ q1, p.doStep q1 = .ok s'.q ∧ p.curTime q1 = p.curTime s.q ∧ SameDir dt (p.curDt q1) ∧
            eps < dirSign dt * (t0 + n * dt - p.curTime s.q) ∧
            (p.curDt q1 = p.curDt s.q ∨ p.curDt q1 = t0 + n * dt - p.curTime s.q)) ∨
          (s'.q = s.q ∧ dirSign dt * (t0 + n * dt - s'.time) ≤ 2 * eps)))
      (fun _ w' => NSErr p eps dt t0 n w w') False := by
  apply Res.Sat.bind
  refine (nsteps_observe_sat hp heps hdt hI).mono ?_ (fun _ _ h => h) id
  rintro ⟨q1, x1, time, step, real⟩ w2 ⟨⟨new, h⟩, hq, hle, -, hcur⟩
  simp only at hq hle hcur
  subst hq
  have hdir := h.dir
  have hw := h.within
  have hno : ∀ a b c, Log.observations (S := S) (T := K) [Event.step a b c] = [] := by
    intros; simp [Log.observations]
  have hno' : ∀ a b c, Log.observations (S := S) (T := K) [Event.init a b c] = [] := by
    intros; simp [Log.observations]
  have hsgn := dirSign_of_sameDir hdir
  simp only at hdir hw hsgn ⊢
  split_ifs with h1 h2
  · have h1' : eps < dirSign dt * (t0 + n * dt - (p.curTime s.q + p.curDt s.q)) := by
      rw [hsgn]; exact (exact_less _ _ _ _).mp h1
    apply Res.Sat.bind
    apply logCall_sat
    · intro q' hq'
      obtain ⟨a1, a2, a3, a4⟩ := advance_sign hp hdir hq'
      have hfar : eps < dirSign dt * (t0 + n * dt - p.curTime s.q) := by
        have : dirSign dt * (t0 + n * dt - p.curTime s.q) =
          dirSign dt * (t0 + n * dt - (p.curTime s.q + p.curDt s.q)) + dirSign dt * p.curDt s.q := by ring
        linarith
      refine ⟨⟨new ++ [.step (p.curState s.q) (p.curTime s.q) (p.curDt s.q)], ?_, ?_, h.time, h.le, ?_, ?_,
        a1, ?_, .inr ⟨s.q, latestStep_snoc p _ hq', (not_beyond_iff _ _ _ _).mpr hcur⟩⟩, hle,
        .inl ⟨s.q, hq', rfl, hdir, hfar, .inl rfl⟩⟩
      · rw [h.log]; simp
      · rw [observations_append, hno, List.append_nil]; exact h.obs_times
      · rw [observations_append, hno, List.append_nil]; exact fun b hb => (h.inside b hb).append _
      · rw [observations_append, hno, List.append_nil]; exact h.state
      · have : dirSign dt * (t0 + n * dt - p.curTime q') =
          dirSign dt * (t0 + n * dt - (p.curTime s.q + p.curDt s.q)) +
            (dirSign dt * p.curDt s.q - dirSign dt * (p.curTime q' - p.curTime s.q)) := by ring
        simp only; rw [this]; linarith
    · intro e _; exact h.toErr _ (hno _ _ _)
  · have h2' : eps < dirSign dt * (t0 + n * dt - p.curTime s.q) := by
      rw [hsgn]; exact (exact_less _ _ _ _).mp h2
    apply Res.Sat.bind
    apply logCall_sat
    swap
    · intro e _; exact h.toErr _ (hno' _ _ _)
    intro q1 hq1
    obtain ⟨b1, b2, b3, b4⟩ := init_rest hp hdt heps h2' hq1
    apply Res.Sat.bind
    apply logCall_sat
    · intro q' hq'
      obtain ⟨a1, a2, a3, a4⟩ := advance_sign hp b1 hq'
      have hnn : ∀ a b c d e f, Log.observations (S := S) (T := K) (new ++ [Event.init a b c] ++
          [Event.step d e f]) = new.observations := by
        intros; rw [observations_append, observations_append, hno, hno']; simp
      refine ⟨⟨new ++ [.init (p.curState s.q) (p.curTime s.q) (t0 + n * dt - p.curTime s.q)] ++
          [.step (p.curState q1) (p.curTime q1) (p.curDt q1)], ?_, ?_, h.time, h.le, ?_, ?_,
        a1, ?_, .inr ⟨q1, latestStep_snoc p _ hq', (not_beyond_iff _ _ _ _).mpr (by rw [b2]; exact hcur)⟩⟩, hle,
        .inl ⟨q1, hq', b2, b1, h2', .inr b4⟩⟩
      · rw [h.log]; simp [loggedDense, TimeArith.exact]
      · rw [hnn]; exact h.obs_times
      · rw [hnn]; intro b hb; rw [List.append_assoc]; exact (h.inside b hb).append _
      · rw [hnn]; exact h.state
      · rw [b4, b2] at a4
        have : dirSign dt * (t0 + n * dt - p.curTime q') =
          dirSign dt * (t0 + n * dt - p.curTime s.q) - dirSign dt * (p.curTime q' - p.curTime s.q) := by ring
        simp only; rw [this]; linarith
    · intro e _
      rw [List.append_assoc]
      exact h.toErr _ (by simp [Log.observations])
  · have h2' : dirSign dt * (t0 + n * dt - p.curTime s.q) ≤ eps := by
      rw [hsgn]; exact (exact_less_false _ _ _ _).mp (Bool.eq_false_iff.mpr h2)
    refine ⟨⟨new, h⟩, hle, .inr ⟨rfl, ?_⟩⟩
    have : dirSign dt * (t0 + n * dt - time) =
      dirSign dt * (t0 + n * dt - p.curTime s.q) + dirSign dt * (p.curTime s.q - time) := by ring
    simp only; rw [this]; linarith

/-- The main loop. -/
theorem nsteps_main_sat {p : PureDense Q S K} (hp : DenseContract p) {eps dt : K} (heps : 0 ≤ eps)
    (hdt : dt ≠ 0) {q : Q} {x : S} {t0 : K} {n : ℕ} {w : Log S K} {s : DenseState Q S K} {w1 : Log S K}
    (hI : ∃ new, NSInv p eps dt q x t0 n w s w1 new) :
    (whileM (fun s : DenseState Q S K => decide (s.step < n))
      (nstepsBody (TimeArith.exact K eps) (loggedDense p) t0 dt (t0 + n * dt)) s w1).Sat
      (fun s' w' => (∃ new, NSInv p eps dt q x t0 n w s' w' new) ∧ s'.step = n)
      (fun _ w' => NSErr p eps dt t0 n w w') True := by
  refine (whileM_sat (fun s w' => ∃ new, NSInv p eps dt q x t0 n w s w' new)
    (E := fun _ w' => NSErr p eps dt t0 n w w') ?_ hI).mono ?_ (fun _ _ h => h) id
  · intro s w2 hI2 _
    exact (nsteps_body_sat hp heps hdt hI2).mono (fun _ _ h => h.1) (fun _ _ h => h) False.elim
  · rintro s' w' ⟨⟨new, h⟩, hc⟩
    have := h.le
    exact ⟨⟨new, h⟩, by simp at hc; omega⟩

/-- The situation before the main loop. -/
theorem nsteps_start {p : PureDense Q S K} (hp : DenseContract p) {eps dt : K}
    (hdt : dt ≠ 0) {q q0 : Q} {x : S} {t0 : K} {n : ℕ} (w : Log S K)
    (hq0 : p.init q x t0 dt = .ok q0) :
    NSInv p eps dt q x t0 n w ⟨q0, x, t0, 0, 0⟩ (w ++ [.init x t0 dt]) [.init x t0 dt] where
  log := rfl
  obs_times := by simp [Log.observations]
  time := by simp
  le := Nat.zero_le _
  inside := by simp [Log.observations]
  state := by simp [Log.observations]
  dir := by
    have := hp.init_dt _ _ _ _ _ hq0
    simp only [this]; exact SameDir.refl hdt
  within := by
    have := hp.init_time _ _ _ _ _ hq0
    simp only [this]
    have e : dirSign dt * (t0 + n * dt - t0) = n * (dirSign dt * dt) := by ring
    rw [e, dirSign_mul_self]; positivity
  latest := .inl ⟨rfl, hq0⟩

/-- The situation after the main loop and in the closing loop. -/
structure NSFin (p : PureDense Q S K) (eps dt : K) (q : Q) (x : S) (t0 : K) (n : ℕ)
    (w : Log S K) (s : DenseState Q S K) (w' new : Log S K) : Prop where
  log : w' = w ++ new
  obs_times : new.observations.map Prod.snd = (List.range n).map fun k : ℕ => t0 + k * dt
  time : s.time = t0 + n * dt
  inside : ∀ b ∈ new.observations, InsideStep p eps dt new b.1 b.2
  state : s.x = (new.observations.getLast?.map Prod.fst).getD x
  dir : SameDir dt (p.curDt s.q)
  within : dirSign dt * (p.curTime s.q - (t0 + n * dt)) ≤ eps
  latest : (n = 0 ∧ p.init q x t0 dt = .ok s.q) ∨ (∃ q1, LatestStep p new q1 s.q)

theorem NSInv.fin {p : PureDense Q S K} {eps dt : K} (heps : 0 ≤ eps) {q : Q} {x : S} {t0 : K} {n : ℕ}
    {w : Log S K} {s : DenseState Q S K} {w' new : Log S K} (h : NSInv p eps dt q x t0 n w s w' new)
    (hs : s.step = n) : NSFin p eps dt q x t0 n w s w' new where
  log := h.log
  obs_times := by rw [h.obs_times, hs]
  time := by rw [h.time, hs]
  inside := h.inside
  state := h.state
  dir := h.dir
  within := by
    have := h.within
    have e : dirSign dt * (p.curTime s.q - (t0 + n * dt)) =
      - (dirSign dt * (t0 + n * dt - p.curTime s.q)) := by ring
    rw [e]; linarith
  latest := by
    rcases h.latest with ⟨h1, h2⟩ | ⟨q1, h1, -⟩
    · exact .inl ⟨by omega, h2⟩
    · exact .inr ⟨q1, h1⟩

theorem NSFin.toErr {p : PureDense Q S K} {eps dt : K} {q : Q} {x : S} {t0 : K} {n : ℕ}
    {w : Log S K} {s : DenseState Q S K} {w' new : Log S K} (h : NSFin p eps dt q x t0 n w s w' new)
    (l : Log S K) (hl : l.observations = []) : NSErr p eps dt t0 n w (w' ++ l) := by
  refine ⟨new ++ l, n, by rw [h.log]; simp, le_rfl, ?_, ?_⟩
  · rw [observations_append, hl, List.append_nil]; exact h.obs_times
  · rw [observations_append, hl, List.append_nil]
    exact fun b hb => (h.inside b hb).append l

/-- The body of the closing loop (lines 140-147 of `integrate_n_steps.hpp`). -/
noncomputable abbrev nstepsClose (A : TimeArith K) (st : DenseStepper Q (Log S K) S K) (end_ : K)
    (s : DenseState Q S K) : M (Log S K) (DenseState Q S K) := do
  let q ← if A.lessWithSign end_ (A.add (st.curTime s.q) (st.curDt s.q)) (st.curDt s.q) then
      st.init s.q (st.curState s.q) (st.curTime s.q) (A.sub end_ (st.curTime s.q))
    else pure s.q
  let q ← st.doStep q
  return { s with q := q }

/-- One iteration of the closing loop, forward in time. -/
theorem nsteps_close_sat {p : PureDense Q S K} (hp : DenseContract p) {eps dt : K} (heps : 0 ≤ eps)
    (hdt : 0 < dt) {q : Q} {x : S} {t0 : K} {n : ℕ} {w : Log S K} {s : DenseState Q S K} {w1 : Log S K}
    (hI : ∃ new, NSFin p eps dt q x t0 n w s w1 new) (hlt : p.curTime s.q < t0 + n * dt) :
    (nstepsClose (TimeArith.exact K eps) (loggedDense p) (t0 + n * dt) s w1).Sat
      (fun s' w' => (∃ new, NSFin p eps dt q x t0 n w s' w' new) ∧
        ∃ q1, p.doStep q1 = .ok s'.q ∧ p.curTime q1 = p.curTime s.q ∧ SameDir dt (p.curDt q1) ∧
            (p.curDt q1 = p.curDt s.q ∨ p.curDt q1 = t0 + n * dt - p.curTime s.q))
      (fun _ w' => NSErr p eps dt t0 n w w') False := by
  obtain ⟨new, h⟩ := hI
  have hdir := h.dir
  have hsgn := dirSign_of_sameDir hdir
  have hs1 : dirSign dt = 1 := by unfold dirSign; rw [if_pos hdt]
  have hfar : 0 < dirSign dt * (t0 + n * dt - p.curTime s.q) := by rw [hs1]; linarith
  -- one step from `q1`, after the events `l`
  have key : ∀ (q1 : Q) (l : Log S K), p.curTime q1 = p.curTime s.q → SameDir dt (p.curDt q1) →
      l.observations = [] → dirSign dt * (p.curTime s.q + p.curDt q1 - (t0 + n * dt)) ≤ eps →
      (p.curDt q1 = p.curDt s.q ∨ p.curDt q1 = t0 + n * dt - p.curTime s.q) →
      ((do
        let q ← (loggedDense p).doStep q1
        return { s with q := q } : M (Log S K) (DenseState Q S K)) (w1 ++ l)).Sat
      (fun s' w' => (∃ new, NSFin p eps dt q x t0 n w s' w' new) ∧
        ∃ q1, p.doStep q1 = .ok s'.q ∧ p.curTime q1 = p.curTime s.q ∧ SameDir dt (p.curDt q1) ∧
            (p.curDt q1 = p.curDt s.q ∨ p.curDt q1 = t0 + n * dt - p.curTime s.q))
      (fun _ w' => NSErr p eps dt t0 n w w') False := by
    intro q1 l ht hd hl hend hsz
    apply Res.Sat.bind
    apply logCall_sat
    · intro q' hq'
      obtain ⟨a1, a2, a3, a4⟩ := advance_sign hp hd hq'
      have hno : ∀ e : Event S K, Log.observations [e] = [] →
          Log.observations (new ++ l ++ [e]) = new.observations := by
        intro e he; rw [observations_append, observations_append, hl, he]; simp
      refine ⟨⟨new ++ l ++ [.step (p.curState q1) (p.curTime q1) (p.curDt q1)], ?_, ?_, h.time, ?_, ?_, a1, ?_,
        .inr ⟨q1, latestStep_snoc p _ hq'⟩⟩, q1, hq', ht, hd, hsz⟩
      · rw [h.log]; simp
      · rw [hno _ (by simp [Log.observations])]; exact h.obs_times
      · rw [hno _ (by simp [Log.observations])]; intro b hb; rw [List.append_assoc]
        exact (h.inside b hb).append _
      · rw [hno _ (by simp [Log.observations])]; exact h.state
      · have : dirSign dt * (p.curTime q' - (t0 + n * dt)) =
          dirSign dt * (p.curTime s.q + p.curDt q1 - (t0 + n * dt)) +
            (dirSign dt * (p.curTime q' - p.curTime q1) - dirSign dt * p.curDt q1) := by rw [ht]; ring
        simp only; rw [this]; linarith
    · intro e _
      rw [List.append_assoc]
      exact h.toErr _ (by rw [observations_append, hl]; simp [Log.observations])
  unfold nstepsClose
  simp only
  split_ifs with h1
  · apply Res.Sat.bind
    apply logCall_sat
    · intro q1 hq1
      have e2 := hp.init_time _ _ _ _ _ hq1
      have e3 := hp.init_dt _ _ _ _ _ hq1
      simp only [loggedDense] at e2
      change p.curDt q1 = t0 + n * dt - p.curTime s.q at e3
      refine key q1 _ e2 ?_ (by simp [Log.observations]) ?_ (.inr e3)
      · rw [e3]; exact (sameDir_iff hdt.ne').mpr hfar
      · rw [e3]
        have : dirSign dt * (p.curTime s.q + (t0 + n * dt - p.curTime s.q) - (t0 + n * dt)) = 0 := by ring
        rw [this]; exact heps
    · intro e _; exact h.toErr _ (by simp [Log.observations])
  · rw [pure_bind]
    have := key s.q [] rfl hdir (by simp [Log.observations]) ?_ (.inl rfl)
    · simpa using this
    · rw [hsgn]; exact (exact_less_false _ _ _ _).mp (Bool.eq_false_iff.mpr h1)

/-- Everything that holds after `integrate_n_steps` with a dense output stepper. -/
theorem nstepsDense_sat (eps : K) (heps : 0 ≤ eps) (p : PureDense Q S K)
    (hp : DenseContract p) (q : Q) (x : S) (t0 dt : K) (hdt : dt ≠ 0) (n : ℕ) (w : Log S K) :
    (integrateNStepsDense (TimeArith.exact K eps) (loggedDense p) record q x t0 dt n w).Sat
      (fun r w' => ∃ s wf new, NSFin p eps dt q x t0 n w s wf new ∧
        w' = wf ++ [.obs (p.curState s.q) (t0 + n * dt)] ∧ r = (s.x, s.time) ∧
        (0 < dt → t0 + n * dt ≤ p.curTime s.q))
      (fun _ w' => NSErr p eps dt t0 n w w') True := by
  unfold integrateNStepsDense
  simp only [show ∀ a b, (TimeArith.exact K eps).add a b = a + b from fun _ _ => rfl,
    show ∀ (a : ℕ) b, (TimeArith.exact K eps).nmul a b = a * b from fun _ _ => rfl]
  apply Res.Sat.bind
  apply logCall_sat
  swap
  · intro e _
    exact ⟨[.init x t0 dt], 0, rfl, Nat.zero_le _, by simp [Log.observations], by simp [Log.observations]⟩
  intro q0 hq0
  apply Res.Sat.bind
  refine (nsteps_main_sat hp heps hdt ⟨_, nsteps_start hp hdt w hq0⟩).mono ?_ (fun _ _ h => h) id
  rintro s w2 ⟨⟨new, h⟩, hs⟩
  have hwithin := h.within
  have hfin := h.fin heps hs
  clear h
  apply Res.Sat.bind
  rcases lt_or_gt_of_ne hdt with hneg | hpos
  · -- backward: the closing loop is never entered
    have hs1 : dirSign dt = -1 := by unfold dirSign; rw [if_neg (not_lt.mpr hneg.le)]
    rw [whileM_stop (cond := fun s : DenseState Q S K => (TimeArith.exact K eps).lt
      ((loggedDense p).curTime s.q) (t0 + n * dt))]
    · refine ⟨s, w2, new, hfin, rfl, rfl, fun h => absurd h (not_lt.mpr hneg.le)⟩
    · rw [hs1] at hwithin
      have : ¬ (p.curTime s.q < t0 + n * dt) := by linarith
      simpa [TimeArith.exact, loggedDense] using this
  · refine (whileM_sat (fun s w' => ∃ new, NSFin p eps dt q x t0 n w s w' new)
      (E := fun _ w' => NSErr p eps dt t0 n w w') ?_ ⟨new, hfin⟩).mono ?_ (fun _ _ h => h) id
    · intro s w2 hI2 hc
      have hlt : p.curTime s.q < t0 + n * dt := by simpa [TimeArith.exact, loggedDense] using hc
      exact (nsteps_close_sat hp heps hpos hI2 hlt).mono (fun _ _ h => h.1) (fun _ _ h => h) False.elim
    · rintro s' w' ⟨⟨new', h'⟩, hc⟩
      refine ⟨s', w', new', h', rfl, rfl, fun _ => ?_⟩
      have : ¬ (p.curTime s'.q < t0 + n * dt) := by
        intro hlt
        have : (TimeArith.exact K eps).lt ((loggedDense p).curTime s'.q) (t0 + n * dt) = true := by
          simpa [TimeArith.exact, loggedDense] using hlt
        rw [this] at hc; cases hc
      exact not_lt.mp this

/-- **C11** (forward in time).  With a dense output stepper and `dt > 0`, whenever `integrate_n_steps`
returns, the observer was called exactly `n+1` times, at `t0+k*dt`, `k = 0..n`; the first `n` states were
interpolated inside the latest step; the last one is the stepper's current state, whose time is `t0+n*dt` up
to `eps`; `t0+n*dt` is returned.  (The state variable keeps the last *interpolated* state, that of
`t0+(n-1)*dt`.) -/
theorem integrate_n_steps_dense_forward (eps : K) (heps : 0 ≤ eps) (p : PureDense Q S K)
    (hp : DenseContract p) (q : Q) (x : S) (t0 dt : K) (hdt : 0 < dt) (n : ℕ) (w w' : Log S K) (r : S × K)
    (hrun : integrateNStepsDense (TimeArith.exact K eps) (loggedDense p) record q x t0 dt n w =
      .ok r w') :
    ∃ (new : Log S K) (obs : List (S × K)) (qf : Q), w' = w ++ new ∧
      new.observations = obs ++ [(p.curState qf, t0 + n * dt)] ∧
      obs.map Prod.snd = (List.range n).map (fun k : ℕ => t0 + k * dt) ∧
      (∀ b ∈ obs, InsideStep p eps dt new b.1 b.2) ∧
      |p.curTime qf - (t0 + n * dt)| ≤ eps ∧
      ((n = 0 ∧ p.init q x t0 dt = .ok qf) ∨ ∃ q1, LatestStep p new q1 qf) ∧
      r = ((obs.getLast?.map Prod.fst).getD x, t0 + n * dt) := by
  obtain ⟨s, wf, new, h, h1, h2, h3⟩ := (nstepsDense_sat eps heps p hp q x t0 dt hdt.ne' n w).of_ok hrun
  have hs1 : dirSign dt = 1 := by unfold dirSign; rw [if_pos hdt]
  refine ⟨new ++ [.obs (p.curState s.q) (t0 + n * dt)], new.observations, s.q, ?_, ?_, h.obs_times,
    fun b hb => (h.inside b hb).append _, ?_, ?_, ?_⟩
  · rw [h1, h.log]; simp
  · rw [observations_append]; simp [Log.observations]
  · have := h.within
    rw [hs1, one_mul] at this
    rw [abs_le]; have := h3 hdt; constructor <;> linarith
  · rcases h.latest with h | ⟨q1, h⟩
    · exact .inl h
    · exact .inr ⟨q1, h.append (by simp [Event.isPassive])⟩
  · rw [h2, h.state, h.time]

/-- **C11** (either direction, partial).  For `dt` of either sign everything except the time of the
last state: the observer was called exactly `n+1` times, at `t0+k*dt`, `k = 0..n`, and the first `n` states
were interpolated inside the latest step.  Missing for `dt < 0`: the last observed state belongs to
some time not beyond `t0+n*dt`, see `integrate_n_steps_dense_backward_wrong`. -/
theorem integrate_n_steps_dense_partial (eps : K) (heps : 0 ≤ eps) (p : PureDense Q S K)
    (hp : DenseContract p) (q : Q) (x : S) (t0 dt : K) (hdt : dt ≠ 0) (n : ℕ) (w w' : Log S K) (r : S × K)
    (hrun : integrateNStepsDense (TimeArith.exact K eps) (loggedDense p) record q x t0 dt n w =
      .ok r w') :
    ∃ (new : Log S K) (obs : List (S × K)) (qf : Q), w' = w ++ new ∧
      new.observations = obs ++ [(p.curState qf, t0 + n * dt)] ∧
      obs.map Prod.snd = (List.range n).map (fun k : ℕ => t0 + k * dt) ∧
      (∀ b ∈ obs, InsideStep p eps dt new b.1 b.2) ∧
      ¬ Beyond eps dt (p.curTime qf) (t0 + n * dt) ∧
      ((n = 0 ∧ p.init q x t0 dt = .ok qf) ∨ ∃ q1, LatestStep p new q1 qf) ∧
      r = ((obs.getLast?.map Prod.fst).getD x, t0 + n * dt) := by
  obtain ⟨s, wf, new, h, h1, h2, h3⟩ := (nstepsDense_sat eps heps p hp q x t0 dt hdt n w).of_ok hrun
  refine ⟨new ++ [.obs (p.curState s.q) (t0 + n * dt)], new.observations, s.q, ?_, ?_, h.obs_times,
    fun b hb => (h.inside b hb).append _, (not_beyond_iff _ _ _ _).mpr h.within, ?_, ?_⟩
  · rw [h1, h.log]; simp
  · rw [observations_append]; simp [Log.observations]
  · rcases h.latest with h | ⟨q1, h⟩
    · exact .inl h
    · exact .inr ⟨q1, h.append (by simp [Event.isPassive])⟩
  · rw [h2, h.state, h.time]

/-- **C11** (exception): the observer has seen an initial part of the grid, interpolated in the same way. -/
theorem integrate_n_steps_dense_exception (eps : K) (heps : 0 ≤ eps) (p : PureDense Q S K)
    (hp : DenseContract p) (q : Q) (x : S) (t0 dt : K) (hdt : dt ≠ 0) (n : ℕ) (w w' : Log S K) (e : Err)
    (hrun : integrateNStepsDense (TimeArith.exact K eps) (loggedDense p) record q x t0 dt n w =
      .err e w') :
    ∃ (new : Log S K) (m : ℕ), w' = w ++ new ∧ m ≤ n ∧
      new.observations.map Prod.snd = (List.range m).map (fun k : ℕ => t0 + k * dt) ∧
      ∀ b ∈ new.observations, InsideStep p eps dt new b.1 b.2 :=
  (nstepsDense_sat eps heps p hp q x t0 dt hdt n w).of_err hrun

/-! ### Termination -/

open Classical in
/-- how many steps of length `g` are needed to cover the distance `d` -/
noncomputable def stepsLeft [Archimedean K] (g d : K) : ℕ :=
  if h : ∃ k : ℕ, d ≤ k * g then Nat.find h else 0

theorem stepsLeft_spec [Archimedean K] {g : K} (hg : 0 < g) (d : K) : d ≤ stepsLeft g d * g := by
  have h : ∃ k : ℕ, d ≤ k * g := by
    obtain ⟨k, hk⟩ := Archimedean.arch d hg
    exact ⟨k, by rwa [nsmul_eq_mul] at hk⟩
  unfold stepsLeft
  rw [dif_pos h]
  exact Nat.find_spec h

theorem stepsLeft_le [Archimedean K] {g : K} {d : K} {k : ℕ} (h : d ≤ k * g) : stepsLeft g d ≤ k := by
  unfold stepsLeft
  rw [dif_pos ⟨k, h⟩]
  exact Nat.find_min' _ h

theorem stepsLeft_mono [Archimedean K] {g : K} (hg : 0 < g) {d d' : K} (h : d' ≤ d) :
    stepsLeft g d' ≤ stepsLeft g d :=
  stepsLeft_le (h.trans (stepsLeft_spec hg d))

theorem stepsLeft_pos [Archimedean K] {g : K} (hg : 0 < g) {d : K} (h : 0 < d) : 0 < stepsLeft g d := by
  rw [Nat.pos_iff_ne_zero]
  intro h0
  have := stepsLeft_spec hg d
  rw [h0] at this; simp at this; linarith

theorem stepsLeft_nonpos [Archimedean K] {g d : K} (h : d ≤ 0) : stepsLeft g d = 0 :=
  Nat.le_zero.mp (stepsLeft_le (k := 0) (by simpa using h))

theorem stepsLeft_lt [Archimedean K] {g : K} (hg : 0 < g) {d d' : K} (h0 : 0 < d) (h : d' + g ≤ d) :
    stepsLeft g d' < stepsLeft g d := by
  have h1 := stepsLeft_pos hg h0
  have h2 := stepsLeft_spec hg d
  obtain ⟨k, hk⟩ : ∃ k, stepsLeft g d = k + 1 := ⟨stepsLeft g d - 1, by omega⟩
  rw [hk] at h2 ⊢
  have : d' ≤ k * g := by push_cast at h2; linarith
  exact Nat.lt_succ_of_le (stepsLeft_le this)

/-- One step of a stepper with `MinProgress`: it covers at least `g`, or leads exactly to `e`. -/
theorem progress_step {p : PureDense Q S K} {g : K} (hpr : MinProgress p g) {dt d e c : K} {q1 q' : Q}
    (hq : p.doStep q1 = .ok q') (hc : p.curTime q1 = c) (hd : SameDir dt (p.curDt q1))
    (hsz : p.curDt q1 = d ∨ p.curDt q1 = e - c) (hg : g ≤ |d|) :
    (g ≤ |p.curTime q' - c| ∧ g ≤ |p.curDt q'|) ∨ p.curTime q' = e := by
  have hnx := hpr.next _ _ hq hd.ne_zero
  have key : g ≤ |p.curTime q' - p.curTime q1| ∨ p.curTime q' = e := by
    rcases hpr.adv _ _ hq hd.ne_zero with h | h
    · rcases hsz with h2 | h2
      · left; rw [h, add_sub_cancel_left, h2]; exact hg
      · right; rw [h, h2, hc]; ring
    · exact .inl h
  rcases key with h | h
  · left; rw [min_eq_left h] at hnx; exact ⟨by rw [← hc]; exact h, hnx⟩
  · exact .inr h

/-- **C11** (termination).  If `2*eps < |dt|` and the stepper makes progress (`MinProgress`, with
`g ≤ |dt|`), `integrate_n_steps` returns or throws. -/
theorem integrate_n_steps_dense_terminates [Archimedean K] (eps : K) (heps : 0 ≤ eps) (p : PureDense Q S K)
    (hp : DenseContract p) (g : K) (hg : 0 < g) (hpr : MinProgress p g) (q : Q) (x : S) (t0 dt : K)
    (hgdt : g ≤ |dt|) (heps2 : 2 * eps < |dt|) (n : ℕ) (w : Log S K) :
    (∃ r w', integrateNStepsDense (TimeArith.exact K eps) (loggedDense p) record q x t0 dt n w =
      .ok r w') ∨
    (∃ e w', integrateNStepsDense (TimeArith.exact K eps) (loggedDense p) record q x t0 dt n w =
      .err e w') := by
  have hdt : dt ≠ 0 := by
    intro h; rw [h, abs_zero] at hgdt; exact absurd hgdt (not_le.mpr hg)
  have key : (integrateNStepsDense (TimeArith.exact K eps) (loggedDense p) record q x t0 dt n w).Sat
      (fun _ _ => True) (fun _ _ => True) False := by
    unfold integrateNStepsDense
    simp only [show ∀ a b, (TimeArith.exact K eps).add a b = a + b from fun _ _ => rfl,
      show ∀ (a : ℕ) b, (TimeArith.exact K eps).nmul a b = a * b from fun _ _ => rfl]
    apply Res.Sat.bind
    apply logCall_sat
    swap
    · intro e _; trivial
    intro q0 hq0
    apply Res.Sat.bind
    refine (whileM_sat_total (W := Log S K) (fun s w' => (∃ new, NSInv p eps dt q x t0 n w s w' new) ∧
        (g ≤ |p.curDt s.q| ∨ p.curTime s.q = t0 + n * dt))
      (E := fun _ _ => True) (D := False)
      (μ := fun s _ => stepsLeft g (dirSign dt * (t0 + n * dt - p.curTime s.q)) + (n - s.step))
      ?_ ?_).mono ?_ (fun _ _ h => h) id
    · rintro s w2 ⟨hI, hsz⟩ hc
      have hlt : s.step < n := by simpa using hc
      refine (nsteps_body_sat hp heps hdt hI).mono ?_ (fun _ _ _ => trivial) id
      rintro s' w3 ⟨⟨new, hI'⟩, hle, hor⟩
      have hle' := hI'.le
      rcases hor with ⟨q1, hq1, ht1, hd1, hfar, hs1⟩ | ⟨hq, hnear⟩
      · have hsz' : g ≤ |p.curDt s.q| := by
          rcases hsz with h | h
          · exact h
          · rw [h] at hfar; simp at hfar; linarith
        have e2 := (advance_sign hp hd1 hq1).2.2.1
        rcases progress_step hpr hq1 ht1 hd1 hs1 hsz' with ⟨h1, h2⟩ | h1
        · refine ⟨⟨⟨new, hI'⟩, .inl h2⟩, ?_⟩
          have : stepsLeft g (dirSign dt * (t0 + n * dt - p.curTime s'.q)) <
              stepsLeft g (dirSign dt * (t0 + n * dt - p.curTime s.q)) := by
            apply stepsLeft_lt hg (by linarith)
            rw [ht1] at e2
            have : dirSign dt * (t0 + n * dt - p.curTime s.q) =
              dirSign dt * (t0 + n * dt - p.curTime s'.q) + |p.curTime s'.q - p.curTime s.q| := by
              rw [← e2]; ring
            linarith
          omega
        · refine ⟨⟨⟨new, hI'⟩, .inr h1⟩, ?_⟩
          have h2 := stepsLeft_pos hg (lt_of_le_of_lt heps hfar)
          have : stepsLeft g (dirSign dt * (t0 + n * dt - p.curTime s'.q)) = 0 :=
            stepsLeft_nonpos (by rw [h1]; simp)
          omega
      · refine ⟨⟨⟨new, hI'⟩, by rw [hq]; exact hsz⟩, ?_⟩
        have : s'.step = n := by
          by_contra hne
          have h1 : s'.step + 1 ≤ n := by omega
          have h2 : ((s'.step : K) + 1) ≤ n := by exact_mod_cast h1
          have h3 : dirSign dt * (t0 + n * dt - s'.time) = (n - s'.step) * (dirSign dt * dt) := by
            rw [hI'.time]; ring
          rw [dirSign_mul_self] at h3
          have h4 : 1 * |dt| ≤ (n - s'.step) * |dt| :=
            mul_le_mul_of_nonneg_right (by linarith) (abs_nonneg dt)
          linarith
        rw [hq]; omega
    · refine ⟨⟨_, nsteps_start hp hdt w hq0⟩, .inl ?_⟩
      simp only [hp.init_dt _ _ _ _ _ hq0]; exact hgdt
    · rintro s w2 ⟨⟨⟨new, h⟩, hsz⟩, hc⟩
      have hs : s.step = n := by
        have := h.le
        simp at hc; omega
      have hwithin := h.within
      have hfin := h.fin heps hs
      apply Res.Sat.bind
      rcases lt_or_gt_of_ne hdt with hneg | hpos
      · have hs1 : dirSign dt = -1 := by unfold dirSign; rw [if_neg (not_lt.mpr hneg.le)]
        rw [whileM_stop (cond := fun s : DenseState Q S K => (TimeArith.exact K eps).lt
          ((loggedDense p).curTime s.q) (t0 + n * dt))]
        · trivial
        · rw [hs1] at hwithin
          have : ¬ (p.curTime s.q < t0 + n * dt) := by linarith
          simpa [TimeArith.exact, loggedDense] using this
      · have hs1 : dirSign dt = 1 := by unfold dirSign; rw [if_pos hpos]
        refine (whileM_sat_total (W := Log S K)
          (fun s w' => (∃ new, NSFin p eps dt q x t0 n w s w' new) ∧
            (g ≤ |p.curDt s.q| ∨ p.curTime s.q = t0 + n * dt))
          (E := fun _ _ => True) (D := False)
          (μ := fun s _ => stepsLeft g (t0 + n * dt - p.curTime s.q)) ?_ ⟨⟨new, hfin⟩, hsz⟩).mono
          (fun _ _ _ => trivial) (fun _ _ h => h) id
        rintro s w2 ⟨hI2, hsz2⟩ hc
        have hlt : p.curTime s.q < t0 + n * dt := by simpa [TimeArith.exact, loggedDense] using hc
        have hsz' : g ≤ |p.curDt s.q| := by
          rcases hsz2 with h | h
          · exact h
          · rw [h] at hlt; exact absurd hlt (lt_irrefl _)
        refine (nsteps_close_sat hp heps hpos hI2 hlt).mono ?_ (fun _ _ _ => trivial) id
        rintro s' w3 ⟨hI', q1, hq1, ht1, hd1, hs2⟩
        have e2 := (advance_sign hp hd1 hq1).2.2.1
        rw [hs1, one_mul, ht1] at e2
        rcases progress_step hpr hq1 ht1 hd1 hs2 hsz' with ⟨h1, h2⟩ | h1
        · exact ⟨⟨hI', .inl h2⟩, stepsLeft_lt hg (by linarith) (by linarith)⟩
        · refine ⟨⟨hI', .inr h1⟩, ?_⟩
          have h2 := stepsLeft_pos hg (sub_pos.mpr hlt)
          rw [h1, stepsLeft_nonpos (by simp)]; exact h2
  revert key
  cases integrateNStepsDense (TimeArith.exact K eps) (loggedDense p) record q x t0 dt n w with
  | ok r w' => intro _; exact .inl ⟨r, w', rfl⟩
  | err e w' => intro _; exact .inr ⟨e, w', rfl⟩
  | ub => intro h; exact h.elim
  | div => intro h; exact h.elim

/-- Non-vacuity of C11: a dense output stepper that doubles its step size keeps the contract and makes
progress, so forward runs return and `integrate_n_steps_dense_forward` applies to them. -/
example : DenseContract (rampDense (2:ℚ)) ∧ MinProgress (rampDense (2:ℚ)) 1 := by
  refine ⟨rampDense_contract 2 (by norm_num), ?_, ?_⟩
  · rintro q q' ⟨⟩ _; exact .inl rfl
  · rintro ⟨x, t, d⟩ q' ⟨⟩ _
    simp only [rampDense, add_sub_cancel_left, abs_mul, abs_two]
    refine (min_le_right _ _).trans ?_
    linarith [abs_nonneg d]

end

/-- **C11 is violated backward in time.**  A contract-abiding dense output stepper solving `x' = 1` exactly,
started in `x = 0`, `t = 0` with `dt = -1` and `n = 2`: the observer is told that at `t = -2` the state is
`-21/16`, although the exact solution, and what the stepper itself computes, is `-2`; the stepper has only
been driven to `t = -21/16`. -/
theorem integrate_n_steps_dense_backward_wrong :
    ∃ x w', integrateNStepsDense (TimeArith.exact ℚ 0) (loggedDense (rampDense (1/4))) record (0, 0, 0) 0 0
        (-1) 2 [] = .ok (x, -2) w' ∧
      w'.observations = [(0, 0), (-1, -1), (-21/16, -2)] := by
  have : ∃ r w', integrateNStepsDense (TimeArith.exact ℚ 0) (loggedDense (rampDense (1/4))) record (0, 0, 0)
      0 0 (-1) 2 [] = .ok r w' ∧ r.2 = -2 ∧ w'.observations = [(0, 0), (-1, -1), (-21/16, -2)] := by
    apply exists_eval
    · unfold integrateNStepsDense
      run_eval
    · norm_num [Log.observations, rampDense, loggedDense, TimeArith.exact, List.filterMap_cons]
  obtain ⟨⟨x, t⟩, w', h1, h2, h3⟩ := this
  simp only at h2
  subst h2
  exact ⟨x, w', h1, h3⟩

end Verif
