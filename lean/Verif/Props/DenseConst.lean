import Verif.Props.DenseNSteps

/-!
# C10: integrate_const with a dense output stepper
-/

namespace Verif
variable {Q S : Type}

section
variable {K : Type} [Field K] [LinearOrder K] [IsStrictOrderedRing K]

/-- Every step has exactly the announced length. -/
def ExactSteps (p : PureDense Q S K) : Prop :=
  ∀ q q', p.doStep q = .ok q' → p.curTime q' = p.curTime q + p.curDt q

/-- The step size never grows (for example: it is constant). -/
def NonGrowing (p : PureDense Q S K) : Prop :=
  ∀ q q', p.doStep q = .ok q' → |p.curDt q'| ≤ |p.curDt q|

/-- Invariant of all loops of `integrate_const`; `obs` are the observations after the first one. -/
structure CInv (p : PureDense Q S K) (eps dt : K) (q : Q) (x : S) (t0 t1 : K)
    (w : Log S K) (s : DenseState Q S K) (w' new : Log S K) (obs : List (S × K)) : Prop where
  log : w' = w ++ new
  observations : new.observations = (x, t0) :: obs
  obs_times : obs.map Prod.snd = (List.range (s.step - 1)).map fun k : ℕ => t0 + (k + 1 : ℕ) * dt
  step_pos : 0 < s.step
  time : s.time = t0 + s.step * dt
  inside : ∀ b ∈ obs, InsideStep p eps dt new b.1 b.2
  short : NonGrowing p → ∀ b ∈ obs, ¬ Beyond (4 * eps) dt b.2 t1
  state : s.x = (obs.getLast?.map Prod.fst).getD x
  count : new.stepCount = s.real
  dir : SameDir dt (p.curDt s.q)
  size : NonGrowing p → |p.curDt s.q| ≤ |dt| + eps ∧
    (|p.curDt s.q| ≤ |dt| ∨ dirSign dt * (t1 - p.curTime s.q) ≤ |dt| + eps)
  latest : (s.real = 0 ∧ s.step = 1 ∧ p.init q x t0 dt = .ok s.q) ∨
    (0 < s.real ∧ ∃ q1, LatestStep p new q1 s.q ∧ ¬ Beyond eps dt (p.curTime q1) s.time)

/-- What in addition holds whenever the condition of the main loop is tested. -/
structure CHead (p : PureDense Q S K) (eps dt : K) (t1 : K) (s : DenseState Q S K) : Prop where
  reached : s.real = 0 ∨ eps < dirSign dt * (p.curTime s.q - s.time) ∨
    (ExactSteps p → dirSign dt * (t1 - p.curTime s.q) ≤ eps)
  near : NonGrowing p → s.real = 0 ∨ dirSign dt * (p.curTime s.q - s.time) ≤ |dt| + 2 * eps ∨
    dirSign dt * (p.curTime s.q - t1) ≤ 0

/-- The situation at an exception. -/
def CErr (p : PureDense Q S K) (eps dt : K) (x : S) (t0 : K) (w w' : Log S K) : Prop :=
  ∃ new obs m, w' = w ++ new ∧ (new.observations = [] ∧ obs = [] ∨ new.observations = (x, t0) :: obs) ∧
    obs.map Prod.snd = (List.range m).map (fun k : ℕ => t0 + (k + 1 : ℕ) * dt) ∧
    ∀ b ∈ obs, InsideStep p eps dt new b.1 b.2

theorem CInv.toErr {p : PureDense Q S K} {eps dt : K} {q : Q} {x : S} {t0 t1 : K}
    {w : Log S K} {s : DenseState Q S K} {w' new : Log S K} {obs : List (S × K)}
    (h : CInv p eps dt q x t0 t1 w s w' new obs)
    (l : Log S K) (hl : l.observations = []) : CErr p eps dt x t0 w (w' ++ l) := by
  refine ⟨new ++ l, obs, _, by rw [h.log]; simp, .inr ?_, h.obs_times,
    fun b hb => (h.inside b hb).append l⟩
  rw [observations_append, hl, List.append_nil]; exact h.observations

theorem CInv.size_step {p : PureDense Q S K} (hp : DenseContract p) {eps dt : K} {q : Q} {x : S} {t0 t1 : K}
    {w : Log S K} {s : DenseState Q S K} {w' new : Log S K} {obs : List (S × K)}
    (h : CInv p eps dt q x t0 t1 w s w' new obs) {q' : Q} (hq' : p.doStep s.q = .ok q') :
    NonGrowing p → |p.curDt q'| ≤ |dt| + eps ∧
      (|p.curDt q'| ≤ |dt| ∨ dirSign dt * (t1 - p.curTime q') ≤ |dt| + eps) := by
  intro hng
  obtain ⟨a1, a2, a3, a4⟩ := advance_sign hp h.dir hq'
  have h1 := hng _ _ hq'
  obtain ⟨h2, h3⟩ := h.size hng
  refine ⟨h1.trans h2, ?_⟩
  rcases h3 with h3 | h3
  · exact .inl (h1.trans h3)
  · right
    have e : dirSign dt * (t1 - p.curTime q') = dirSign dt * (t1 - p.curTime s.q) -
      dirSign dt * (p.curTime q' - p.curTime s.q) := by ring
    linarith

/-- A stepper call: the invariant for the log extended by events `l` ending with a step. -/
theorem CInv.step {p : PureDense Q S K} {eps dt : K} {q : Q} {x : S} {t0 t1 : K}
    {w : Log S K} {s : DenseState Q S K} {w' new : Log S K} {obs : List (S × K)}
    (h : CInv p eps dt q x t0 t1 w s w' new obs) {q1 q' : Q} {l : Log S K} (hl : l.observations = [])
    (hl2 : l.stepCount = 0) (hq' : p.doStep q1 = .ok q') (hd : SameDir dt (p.curDt q'))
    (hsize : NonGrowing p → |p.curDt q'| ≤ |dt| + eps ∧
      (|p.curDt q'| ≤ |dt| ∨ dirSign dt * (t1 - p.curTime q') ≤ |dt| + eps))
    (hle : ¬ Beyond eps dt (p.curTime q1) s.time) :
    CInv p eps dt q x t0 t1 w { s with q := q', real := s.real + 1 }
      (w' ++ l ++ [.step (p.curState q1) (p.curTime q1) (p.curDt q1)])
      (new ++ l ++ [.step (p.curState q1) (p.curTime q1) (p.curDt q1)]) obs where
  log := by rw [h.log]; simp
  observations := by
    rw [observations_append, observations_append, hl, h.observations]; simp [Log.observations]
  obs_times := h.obs_times
  step_pos := h.step_pos
  time := h.time
  inside := fun b hb => by rw [List.append_assoc]; exact (h.inside b hb).append _
  short := h.short
  state := h.state
  count := by
    rw [stepCount_append, stepCount_append, hl2, h.count]; simp [Log.stepCount]
  dir := hd
  size := hsize
  latest := .inr ⟨Nat.succ_pos _, q1, latestStep_snoc p _ hq', hle⟩

/-- The observation loop (lines 125-133). -/
theorem const_observe_sat [Archimedean K] {p : PureDense Q S K} (hp : DenseContract p) {eps dt : K}
    (heps : 0 ≤ eps) (hdt : eps < |dt|) {q : Q} {x : S} {t0 t1 : K} {w : Log S K} {s : DenseState Q S K}
    {w1 : Log S K} (hI : ∃ new obs, CInv p eps dt q x t0 t1 w s w1 new obs)
    (hnear : NonGrowing p → dirSign dt * (p.curTime s.q - t1) ≤ 3 * eps) :
    (whileM
        (fun s : DenseState Q S K => (TimeArith.exact K eps).lessEqWithSign s.time
          ((loggedDense p).curTime s.q) dt)
        (fun s => do
          let x ← (loggedDense p).calcState s.q s.time
          record x s.time
          return { s with x := x, step := s.step + 1,
                          time := (TimeArith.exact K eps).add t0
                            ((TimeArith.exact K eps).nmul (s.step + 1) dt) })
        s w1).Sat
      (fun s' w' => (∃ new obs, CInv p eps dt q x t0 t1 w s' w' new obs) ∧ s'.q = s.q ∧
        s'.real = s.real ∧ s.step ≤ s'.step ∧ (s'.step = s.step → s'.time = s.time) ∧
        eps < dirSign dt * (s'.time - p.curTime s.q))
      (fun _ w' => CErr p eps dt x t0 w w') False := by
  have hd0 : 0 < |dt| := lt_of_le_of_lt heps hdt
  have e1 := dirSign_mul_self dt
  refine (whileM_sat_total (W := Log S K)
    (I := fun s' w' => (∃ new obs, CInv p eps dt q x t0 t1 w s' w' new obs) ∧ s'.q = s.q ∧
      s'.real = s.real ∧ s.step ≤ s'.step)
    (E := fun _ w' => CErr p eps dt x t0 w w') (D := False)
    (μ := fun s' _ => stepsLeft |dt| (dirSign dt * (p.curTime s.q - s'.time) + eps + |dt|)) ?_
    ⟨hI, rfl, rfl, le_rfl⟩).mono ?_ (fun _ _ h => h) id
  · rintro ⟨q1, x1, time, step, real⟩ w2 ⟨⟨new, obs, h⟩, hq1, hreal, hle⟩ hc
    simp only at hq1 hreal hle
    subst hq1
    have hdir := h.dir
    have ht := h.time
    have hpos := h.step_pos
    simp only at hdir ht hpos
    have hc' : dirSign dt * (time - p.curTime s.q) ≤ eps := (exact_lessEq _ _ _ _).mp hc
    have hcneg : dirSign dt * (p.curTime s.q - time) = - (dirSign dt * (time - p.curTime s.q)) := by ring
    -- the stepper has made a step
    have hstepped : ∃ q1, LatestStep p new q1 s.q ∧ ¬ Beyond eps dt (p.curTime q1) time := by
      rcases h.latest with ⟨-, h0, hinit⟩ | ⟨-, hls⟩
      · exfalso
        have ht0 := hp.init_time _ _ _ _ _ hinit
        simp only at h0 ht0
        rw [ht0, ht, h0] at hc'
        have : dirSign dt * (t0 + ((1:ℕ):K) * dt - t0) = dirSign dt * dt := by push_cast; ring
        rw [this, e1] at hc'; linarith
      · exact hls
    obtain ⟨q2, hls, hb2⟩ := hstepped
    apply Res.Sat.bind
    apply logCall_sat
    · intro y hy
      rw [record_bind]
      have hnext : t0 + ((step + 1 : ℕ) : K) * dt = time + dt := by rw [ht]; push_cast; ring
      refine ⟨⟨⟨new ++ [.calc time] ++ [.obs y time], obs ++ [(y, time)], ?_, ?_, ?_, Nat.succ_pos _, ?_, ?_, ?_,
        ?_, ?_, hdir, h.size, .inr ⟨?_, q2, ?_, ?_⟩⟩, rfl, hreal, by simp only; omega⟩, ?_⟩
      · rw [h.log]; simp
      · rw [observations_append, observations_append, h.observations]; simp [Log.observations]
      · rw [List.map_append, h.obs_times]
        obtain ⟨m, rfl⟩ : ∃ m, step = m + 1 := ⟨step - 1, by omega⟩
        simp only [Nat.add_sub_cancel, List.range_succ, List.map_append, List.map_cons, List.map_nil]
        rw [ht]
      · simp [TimeArith.exact]
      · intro b hb
        rcases List.mem_append.mp hb with hb | hb
        · rw [List.append_assoc]; exact (h.inside b hb).append _
        · simp only [List.mem_singleton] at hb
          subst hb
          exact ⟨q2, _, new, [], by simp, hls, hy, hb2, (not_beyond_iff _ _ _ _).mpr hc'⟩
      · intro hs b hb
        rcases List.mem_append.mp hb with hb | hb
        · exact h.short hs b hb
        · simp only [List.mem_singleton] at hb
          subst hb
          rw [not_beyond_iff]
          have := hnear hs
          have e : dirSign dt * (time - t1) = dirSign dt * (time - p.curTime s.q) +
            dirSign dt * (p.curTime s.q - t1) := by ring
          simp only; rw [e]; linarith
      · simp
      · rw [stepCount_append, stepCount_append, h.count]; simp [Log.stepCount]
      · rcases h.latest with ⟨h0, h1, hinit⟩ | ⟨h0, -⟩
        · exfalso
          have ht0 := hp.init_time _ _ _ _ _ hinit
          simp only at h1 ht0
          rw [ht0, ht, h1] at hc'
          have : dirSign dt * (t0 + ((1:ℕ):K) * dt - t0) = dirSign dt * dt := by push_cast; ring
          rw [this, e1] at hc'; linarith
        · exact h0
      · rw [List.append_assoc]; exact hls.append (by simp [Event.isPassive])
      · rw [not_beyond_iff] at hb2 ⊢
        simp only [TimeArith.exact] at hb2 ⊢
        rw [hnext]
        have : dirSign dt * (p.curTime q2 - (time + dt)) =
          dirSign dt * (p.curTime q2 - time) - dirSign dt * dt := by ring
        rw [this, e1]; linarith
      · apply stepsLeft_lt hd0
        · rw [hcneg]; linarith
        · simp only [TimeArith.exact]
          rw [hnext]
          have : dirSign dt * (p.curTime s.q - (time + dt)) =
            dirSign dt * (p.curTime s.q - time) - dirSign dt * dt := by ring
          rw [this, e1]; linarith
    · intro e _
      exact h.toErr _ (by simp [Log.observations])
  · rintro s' w' ⟨⟨⟨new, obs, h⟩, h2, h3, h4⟩, hc⟩
    obtain ⟨new0, obs0, h0⟩ := hI
    refine ⟨⟨new, obs, h⟩, h2, h3, h4, fun he => by rw [h.time, h0.time, he], ?_⟩
    rw [← h2]
    exact (exact_lessEq_false _ _ _ _).mp hc

/-- The body of the main loop as a function (lines 123-152 of `integrate_const.hpp`). -/
noncomputable abbrev constDenseBody (A : TimeArith K) (st : DenseStepper Q (Log S K) S K) (start end_ dt : K)
    (s : DenseState Q S K) : M (Log S K) (DenseState Q S K) := do
  let s ← whileM (fun s : DenseState Q S K => A.lessEqWithSign s.time (st.curTime s.q) dt)
    (fun s => do
      let x ← st.calcState s.q s.time
      record x s.time
      return { s with x := x, step := s.step + 1,
                      time := A.add start (A.nmul (s.step + 1) dt) })
    s
  if A.lessWithSign (A.add (st.curTime s.q) (st.curDt s.q)) end_ (st.curDt s.q) then
    whileM (fun s : DenseState Q S K => A.lessEqWithSign (st.curTime s.q) s.time dt)
      (fun s => do
        let q ← st.doStep s.q
        return { s with q := q, real := s.real + 1 })
      s
  else if A.lessWithSign (st.curTime s.q) end_ (st.curDt s.q) then do
    let q ← st.init s.q (st.curState s.q) (st.curTime s.q)
      (A.sub end_ (st.curTime s.q))
    let q ← st.doStep q
    return { s with q := q, real := s.real + 1 }
  else return s

/-- One iteration of the main loop.  `D` is whether it may fail to return. -/
theorem const_body_sat [Archimedean K] {p : PureDense Q S K} (hp : DenseContract p) {eps dt : K}
    (heps : 0 ≤ eps) (hdt : eps < |dt|) {q : Q} {x : S} {t0 t1 : K} {w : Log S K} {s : DenseState Q S K}
    {w1 : Log S K} (hI : ∃ new obs, CInv p eps dt q x t0 t1 w s w1 new obs) (hH : CHead p eps dt t1 s)
    (hcond : dirSign dt * (s.time + dt - t1) ≤ eps) :
    (constDenseBody (TimeArith.exact K eps) (loggedDense p) t0 t1 dt s w1).Sat
      (fun s' w' => (∃ new obs, CInv p eps dt q x t0 t1 w s' w' new obs) ∧ CHead p eps dt t1 s' ∧
        0 < s'.real)
      (fun _ w' => CErr p eps dt x t0 w w') True := by
  have hd0 : 0 < |dt| := lt_of_le_of_lt heps hdt
  have hdt0 : dt ≠ 0 := abs_pos.mp hd0
  have e1 := dirSign_mul_self dt
  have hct : dirSign dt * (s.time + dt - t1) = dirSign dt * (s.time - t1) + |dt| := by rw [← e1]; ring
  apply Res.Sat.bind
  refine (const_observe_sat hp heps hdt hI ?_).mono ?_ (fun _ _ h => h) False.elim
  · intro hs
    rcases hH.near hs with h | h | h
    · obtain ⟨new, obs, hI⟩ := hI
      rcases hI.latest with ⟨-, h1, h2⟩ | ⟨h1, -⟩
      · rw [hp.init_time _ _ _ _ _ h2]
        have h3 := hI.time
        rw [h1] at h3
        have : dirSign dt * (t0 - t1) = dirSign dt * (s.time - t1) - dirSign dt * dt := by
          rw [h3]; push_cast; ring
        rw [this, e1]; linarith
      · omega
    · have : dirSign dt * (p.curTime s.q - t1) = dirSign dt * (p.curTime s.q - s.time) +
        dirSign dt * (s.time - t1) := by ring
      rw [this]; linarith
    · linarith
  rintro ⟨q1, x1, time, step, real⟩ w2 ⟨⟨new, obs, h⟩, hq1, hreal, hle, htime, hcur⟩
  simp only at hq1 hreal hle hcur htime
  subst hq1
  have hdir := h.dir
  have hsgn := dirSign_of_sameDir hdir
  simp only at hdir hsgn ⊢
  have hcneg : dirSign dt * (p.curTime s.q - time) = - (dirSign dt * (time - p.curTime s.q)) := by ring
  split_ifs with h1 h2
  · -- at least one step is made
    rw [whileM_true (cond := fun s : DenseState Q S K => (TimeArith.exact K eps).lessEqWithSign
      ((loggedDense p).curTime s.q) s.time dt) ((exact_lessEq _ _ _ _).mpr (by
        change dirSign dt * (p.curTime s.q - time) ≤ eps; linarith))]
    apply Res.Sat.bind
    apply Res.Sat.bind
    apply logCall_sat
    swap
    · intro e _; exact h.toErr _ (by simp [Log.observations])
    intro q' hq'
    obtain ⟨a1, a2, a3, a4⟩ := advance_sign hp hdir hq'
    have hs1 := h.step (l := []) (by simp [Log.observations]) (by simp [Log.stepCount]) hq' a1
      (h.size_step hp hq')
      ((not_beyond_iff _ _ _ _).mpr (by simp only; linarith))
    simp only [List.append_nil] at hs1
    refine (whileM_sat (fun s' w' => (∃ new obs, CInv p eps dt q x t0 t1 w s' w' new obs) ∧ 0 < s'.real ∧
      (NonGrowing p → dirSign dt * (p.curTime s'.q - s'.time) ≤ |dt| + 2 * eps))
      (E := fun _ w' => CErr p eps dt x t0 w w') ?_ ⟨⟨_, _, hs1⟩, Nat.succ_pos _, ?_⟩).mono ?_
      (fun _ _ h => h) id
    · rintro s2 w3 ⟨⟨new2, obs2, g⟩, g2, -⟩ hc2
      have hc2' : dirSign dt * (p.curTime s2.q - s2.time) ≤ eps := (exact_lessEq _ _ _ _).mp hc2
      apply Res.Sat.bind
      apply logCall_sat
      · intro q3 hq3
        obtain ⟨b1, b2, b3, b4⟩ := advance_sign hp g.dir hq3
        have hs3 := g.step (l := []) (by simp [Log.observations]) (by simp [Log.stepCount]) hq3 b1
          (g.size_step hp hq3)
          ((not_beyond_iff _ _ _ _).mpr hc2')
        simp only [List.append_nil] at hs3
        refine ⟨⟨_, _, hs3⟩, Nat.succ_pos _, fun hsh => ?_⟩
        have := (g.size hsh).1
        have h5 := dirSign_mul_self (p.curDt s2.q)
        rw [← dirSign_of_sameDir g.dir] at h5
        rw [h5] at b4
        have e : dirSign dt * (p.curTime q3 - s2.time) = dirSign dt * (p.curTime q3 - p.curTime s2.q) +
          dirSign dt * (p.curTime s2.q - s2.time) := by ring
        simp only; rw [e]; linarith
      · intro e _; exact g.toErr _ (by simp [Log.observations])
    · intro hsh
      have := (h.size hsh).1
      have h5 := dirSign_mul_self (p.curDt s.q)
      rw [← hsgn] at h5
      rw [h5] at a4
      simp only at this
      have e : dirSign dt * (p.curTime q' - time) = dirSign dt * (p.curTime q' - p.curTime s.q) +
        dirSign dt * (p.curTime s.q - time) := by ring
      simp only; rw [e]; linarith
    · rintro s2 w3 ⟨⟨hI2, g2, g3⟩, hc2⟩
      refine ⟨hI2, ⟨.inr (.inl ?_), fun hsh => .inr (.inl (g3 hsh))⟩, g2⟩
      exact (exact_lessEq_false _ _ _ _).mp hc2
  · have h2' : eps < dirSign dt * (t1 - p.curTime s.q) := by
      rw [hsgn]; exact (exact_less _ _ _ _).mp h2
    apply Res.Sat.bind
    apply logCall_sat
    swap
    · intro e _; exact h.toErr _ (by simp [Log.observations])
    intro q1 hq1
    obtain ⟨b1, b2, b3, b4⟩ := init_rest hp hdt0 heps h2' hq1
    apply Res.Sat.bind
    apply logCall_sat
    swap
    · intro e _
      rw [List.append_assoc]
      exact h.toErr _ (by simp [Log.observations])
    intro q' hq'
    obtain ⟨a1, a2, a3, a4⟩ := advance_sign hp b1 hq'
    have hsz : NonGrowing p → |p.curDt q'| ≤ |dt| + eps ∧
        (|p.curDt q'| ≤ |dt| ∨ dirSign dt * (t1 - p.curTime q') ≤ |dt| + eps) := by
      intro hng
      have h3 := hng _ _ hq'
      have h5 := dirSign_mul_self (p.curDt q1)
      rw [← dirSign_of_sameDir b1, b4] at h5
      have h6 := dirSign_mul_self (p.curDt s.q)
      rw [← hsgn] at h6
      have h7 : dirSign dt * (t1 - p.curTime s.q) ≤ |p.curDt s.q| + eps := by
        have h1' : dirSign dt * (t1 - (p.curTime s.q + p.curDt s.q)) ≤ eps := by
          rw [hsgn]; exact (exact_less_false _ _ _ _).mp (Bool.eq_false_iff.mpr h1)
        have e : dirSign dt * (t1 - (p.curTime s.q + p.curDt s.q)) =
          dirSign dt * (t1 - p.curTime s.q) - dirSign dt * p.curDt s.q := by ring
        rw [e, h6] at h1'; linarith
      have h8 : dirSign dt * (t1 - p.curTime s.q) ≤ |dt| + eps := by
        rcases (h.size hng).2 with h9 | h9
        · simp only at h9; linarith
        · exact h9
      rw [b4, ← h5] at h3
      refine ⟨by linarith, .inr ?_⟩
      have e : dirSign dt * (t1 - p.curTime q') = dirSign dt * (t1 - p.curTime s.q) -
        dirSign dt * (p.curTime q' - p.curTime q1) := by rw [b2]; ring
      linarith
    have hs1 := h.step (l := [.init (p.curState s.q) (p.curTime s.q) (t1 - p.curTime s.q)])
      (by simp [Log.observations]) (by simp [Log.stepCount]) hq' a1 hsz
      ((not_beyond_iff _ _ _ _).mpr (by rw [b2]; simp only; linarith))
    refine ⟨⟨_, _, hs1⟩, ⟨.inr (.inr fun hex => ?_), fun _ => .inr (.inr ?_)⟩, Nat.succ_pos _⟩
    · have := hex _ _ hq'
      rw [b4, b2] at this
      simp only; rw [this]; simp [heps]
    · rw [b4, b2] at a4
      have : dirSign dt * (p.curTime q' - t1) = dirSign dt * (p.curTime q' - p.curTime s.q) -
        dirSign dt * (t1 - p.curTime s.q) := by ring
      simp only; rw [this]; linarith
  · have h2' : dirSign dt * (t1 - p.curTime s.q) ≤ eps := by
      rw [hsgn]; exact (exact_less_false _ _ _ _).mp (Bool.eq_false_iff.mpr h2)
    refine ⟨⟨new, obs, h⟩, ⟨.inr (.inr fun _ => h2'), fun _ => .inr (.inl ?_)⟩, ?_⟩
    · simp only; rw [hcneg]; linarith
    · rcases h.latest with ⟨-, g1, g2⟩ | ⟨g1, -⟩
      · exfalso
        simp only at g1 g2
        have g3 := h.time
        simp only at g3
        have hst : s.step = 1 := by obtain ⟨_, _, hI⟩ := hI; have := hI.step_pos; omega
        have ht := htime (by rw [hst, g1])
        have : dirSign dt * (t1 - p.curTime s.q) = - dirSign dt * (s.time - t1) + dirSign dt * dt := by
          rw [hp.init_time _ _ _ _ _ g2, ← ht, g3, g1]; push_cast; ring
        rw [e1] at this
        have e : - dirSign dt * (s.time - t1) = - (dirSign dt * (s.time - t1)) := by ring
        rw [e] at this
        linarith
      · exact g1

/-- The situation before the main loop. -/
theorem const_start {p : PureDense Q S K} (hp : DenseContract p) {eps dt : K} (heps : 0 ≤ eps)
    (hdt : dt ≠ 0) {q q0 : Q} {x : S} {t0 t1 : K} (w : Log S K)
    (hq0 : p.init q x t0 dt = .ok q0) :
    CInv p eps dt q x t0 t1 w ⟨q0, x, t0 + dt, 1, 0⟩ (w ++ [.init x t0 dt] ++ [.obs x t0])
      [.init x t0 dt, .obs x t0] [] where
  log := by simp
  observations := by simp [Log.observations]
  obs_times := by simp
  step_pos := Nat.one_pos
  time := by simp
  inside := by simp
  short := by simp
  state := by simp
  count := by simp [Log.stepCount]
  dir := by
    have := hp.init_dt _ _ _ _ _ hq0
    simp only [this]; exact SameDir.refl hdt
  size := by
    have := hp.init_dt _ _ _ _ _ hq0
    simp only [this]
    exact fun _ => ⟨by linarith, .inl le_rfl⟩
  latest := .inl ⟨rfl, rfl, hq0⟩

/-- Everything that holds after `integrate_const` with a dense output stepper. -/
theorem constDense_sat [Archimedean K] (eps : K) (heps : 0 ≤ eps) (p : PureDense Q S K)
    (hp : DenseContract p) (q : Q) (x : S) (t0 t1 dt : K) (hdt : eps < |dt|) (w : Log S K) :
    (integrateConstDense (TimeArith.exact K eps) (loggedDense p) record q x t0 t1 dt w).Sat
      (fun r w' => ∃ s w2 new obs, CInv p eps dt q x t0 t1 w s w2 new obs ∧ CHead p eps dt t1 s ∧
        (0 < s.real ∨ s.time = t0 + dt) ∧ eps < dirSign dt * (s.time + dt - t1) ∧
        ((¬ Beyond eps dt s.time t1 ∧ ∃ y, p.calcState s.q s.time = .ok y ∧
            w' = w2 ++ [.calc s.time] ++ [.obs y s.time] ∧ r = (y, s.real)) ∨
          (Beyond eps dt s.time t1 ∧ w' = w2 ∧ r = (s.x, s.real))))
      (fun _ w' => CErr p eps dt x t0 w w') True := by
  have hd0 : 0 < |dt| := lt_of_le_of_lt heps hdt
  have hdt0 : dt ≠ 0 := abs_pos.mp hd0
  unfold integrateConstDense
  apply Res.Sat.bind
  apply logCall_sat
  swap
  · intro e _
    exact ⟨[.init x t0 dt], [], 0, rfl, .inl ⟨by simp [Log.observations], rfl⟩, by simp, by simp⟩
  intro q0 hq0
  rw [record_bind]
  apply Res.Sat.bind
  refine (whileM_sat (fun s w' => (∃ new obs, CInv p eps dt q x t0 t1 w s w' new obs) ∧
      CHead p eps dt t1 s ∧ (0 < s.real ∨ s.time = t0 + dt))
    (E := fun _ w' => CErr p eps dt x t0 w w') ?_ ?_).mono ?_ (fun _ _ h => h) id
  · rintro s w2 ⟨hI, hH, -⟩ hc
    exact (const_body_sat hp heps hdt hI hH ((exact_lessEq _ _ _ _).mp hc)).mono
      (fun _ _ h => ⟨h.1, h.2.1, .inl h.2.2⟩) (fun _ _ h => h) id
  · exact ⟨⟨_, _, const_start hp heps hdt0 w hq0⟩, ⟨.inl rfl, fun _ => .inl rfl⟩, .inr rfl⟩
  · rintro s w2 ⟨⟨⟨new, obs, h⟩, hH, hor⟩, hc⟩
    have hc' : eps < dirSign dt * (s.time + dt - t1) := (exact_lessEq_false _ _ _ _).mp hc
    by_cases hle : (TimeArith.exact K eps).lessEqWithSign s.time t1 dt = true
    · rw [if_pos hle]
      apply Res.Sat.bind
      apply logCall_sat
      · intro y hy
        rw [record_bind]
        refine ⟨s, w2, new, obs, h, hH, hor, hc', .inl ⟨?_, y, hy, rfl, rfl⟩⟩
        exact (not_beyond_iff _ _ _ _).mpr ((exact_lessEq _ _ _ _).mp hle)
      · intro e _; exact h.toErr _ (by simp [Log.observations])
    · rw [if_neg hle]
      refine ⟨s, w2, new, obs, h, hH, hor, hc', .inr ⟨?_, rfl, rfl⟩⟩
      exact (beyond_iff _ _ _ _).mpr ((exact_lessEq_false _ _ _ _).mp (Bool.eq_false_iff.mpr hle))

/-- **C10** (partial).  With a dense output stepper, whenever `integrate_const` returns: the observer was
called first with the initial state and then at consecutive grid points `t0+dt, t0+2*dt, ...` (`obs`),
including every grid point not beyond `t1`; all states but possibly the last one were interpolated inside
the latest step; the last one is `calc_state` of the final stepper state; the number of steps is
returned.  Missing: the last state need not be interpolated
(`integrate_const_dense_one_interval`: no step at all may have been made), and grid points beyond `t1` may
be observed (`integrate_const_dense_overshoot`). -/
theorem integrate_const_dense_partial [Archimedean K] (eps : K) (heps : 0 ≤ eps) (p : PureDense Q S K)
    (hp : DenseContract p) (q : Q) (x : S) (t0 t1 dt : K) (hdt : eps < |dt|) (w w' : Log S K) (r : S × ℕ)
    (hrun : integrateConstDense (TimeArith.exact K eps) (loggedDense p) record q x t0 t1 dt w =
      .ok r w') :
    ∃ (new : Log S K) (obs : List (S × K)) (m : ℕ), w' = w ++ new ∧ new.observations = (x, t0) :: obs ∧
      obs.map Prod.snd = (List.range m).map (fun k : ℕ => t0 + (k + 1 : ℕ) * dt) ∧
      (∀ k : ℕ, ¬ Beyond eps dt (t0 + (k + 1 : ℕ) * dt) t1 → k < m) ∧
      (∀ b ∈ obs.dropLast, InsideStep p eps dt new b.1 b.2) ∧
      (∀ b ∈ obs.getLast?, InsideStep p eps dt new b.1 b.2 ∨
        ∃ qf, p.calcState qf b.2 = .ok b.1 ∧
          ((new.stepCount = 0 ∧ p.init q x t0 dt = .ok qf) ∨
            ∃ q1, LatestStep p new q1 qf ∧ ¬ Beyond eps dt (p.curTime q1) b.2)) ∧
      new.stepCount = r.2 ∧ r.1 = (obs.getLast?.map Prod.fst).getD x := by
  obtain ⟨s, w2, new, obs, h, -, hor, hc, hcases⟩ :=
    (constDense_sat eps heps p hp q x t0 t1 dt hdt w).of_ok hrun
  have hd0 : 0 < |dt| := lt_of_le_of_lt heps hdt
  have e1 := dirSign_mul_self dt
  have hbey : ∀ k j : ℕ, eps < dirSign dt * (t0 + (j : ℕ) * dt - t1) →
      ¬ Beyond eps dt (t0 + (k : ℕ) * dt) t1 → k < j := by
    intro k j h1 h2
    rw [not_beyond_iff] at h2
    by_contra hle
    have h3 : (j : K) ≤ k := by exact_mod_cast Nat.not_lt.mp hle
    have h4 := mul_le_mul_of_nonneg_right h3 hd0.le
    have e2 : dirSign dt * (t0 + (k : K) * dt - t1) = dirSign dt * (t0 + (j : K) * dt - t1) +
      ((k : K) * (dirSign dt * dt) - j * (dirSign dt * dt)) := by ring
    rw [e1] at e2; linarith
  have hpos := h.step_pos
  rcases hcases with ⟨hle, y, hy, hw', hr⟩ | ⟨hgt, hw', hr⟩
  · refine ⟨new ++ [.calc s.time] ++ [.obs y s.time], obs ++ [(y, s.time)], s.step, ?_, ?_, ?_, ?_, ?_, ?_,
      ?_, ?_⟩
    · rw [hw', h.log]; simp
    · rw [observations_append, observations_append, h.observations]; simp [Log.observations]
    · rw [List.map_append, h.obs_times, h.time]
      obtain ⟨m, hm⟩ : ∃ m, s.step = m + 1 := ⟨s.step - 1, by omega⟩
      rw [hm]
      simp only [Nat.add_sub_cancel, List.range_succ, List.map_append, List.map_cons, List.map_nil]
    · intro k hk
      have := hbey (k + 1) (s.step + 1) (by
        rw [h.time] at hc
        have : t0 + ((s.step + 1 : ℕ) : K) * dt = t0 + s.step * dt + dt := by push_cast; ring
        rw [this]; exact hc) hk
      omega
    · rw [List.dropLast_concat]
      intro b hb; rw [List.append_assoc]; exact (h.inside b hb).append _
    · intro b hb
      rw [List.getLast?_concat] at hb
      cases hb
      right
      refine ⟨s.q, hy, ?_⟩
      rcases h.latest with ⟨h1, -, h2⟩ | ⟨-, q1, h1, h2⟩
      · left
        refine ⟨?_, h2⟩
        rw [stepCount_append, stepCount_append, h.count, h1]; simp [Log.stepCount]
      · right
        exact ⟨q1, by rw [List.append_assoc]; exact h1.append (by simp [Event.isPassive]), h2⟩
    · rw [stepCount_append, stepCount_append, h.count, hr]; simp [Log.stepCount]
    · rw [hr]; simp
  · refine ⟨new, obs, s.step - 1, by rw [hw']; exact h.log, h.observations, h.obs_times, ?_,
      fun b hb => h.inside b (List.mem_of_mem_dropLast hb), fun b hb => .inl (h.inside b ?_), ?_, ?_⟩
    · intro k hk
      rw [beyond_iff, h.time] at hgt
      have := hbey (k + 1) s.step hgt hk
      omega
    · exact List.mem_of_getLast? hb
    · rw [h.count, hr]
    · rw [hr]; exact h.state

/-- **C10** for steppers whose steps have exactly the announced length and whose step size never grows
(fixed-step dense output), if at least two intervals fit: the observer is called at all grid points not
beyond `t1` and (up to `4*eps`) at no others, and every state is interpolated (up to `2*eps`). -/
theorem integrate_const_dense_fixed_step [Archimedean K] (eps : K) (heps : 0 ≤ eps) (p : PureDense Q S K)
    (hp : DenseContract p) (hex : ExactSteps p) (hng : NonGrowing p) (q : Q) (x : S) (t0 t1 dt : K)
    (hdt : eps < |dt|) (htwo : ¬ Beyond eps dt (t0 + 2 * dt) t1) (w w' : Log S K) (r : S × ℕ)
    (hrun : integrateConstDense (TimeArith.exact K eps) (loggedDense p) record q x t0 t1 dt w =
      .ok r w') :
    ∃ (new : Log S K) (obs : List (S × K)) (m : ℕ), w' = w ++ new ∧ new.observations = (x, t0) :: obs ∧
      obs.map Prod.snd = (List.range m).map (fun k : ℕ => t0 + (k + 1 : ℕ) * dt) ∧
      (∀ k : ℕ, ¬ Beyond eps dt (t0 + (k + 1 : ℕ) * dt) t1 → k < m) ∧
      (∀ k < m, ¬ Beyond (4 * eps) dt (t0 + (k + 1 : ℕ) * dt) t1) ∧
      (∀ b ∈ obs, InsideStep p (2 * eps) dt new b.1 b.2) := by
  obtain ⟨s, w2, new, obs, h, hH, hor, hc, hcases⟩ :=
    (constDense_sat eps heps p hp q x t0 t1 dt hdt w).of_ok hrun
  have hd0 : 0 < |dt| := lt_of_le_of_lt heps hdt
  have e1 := dirSign_mul_self dt
  have hbey : ∀ k j : ℕ, eps < dirSign dt * (t0 + (j : ℕ) * dt - t1) →
      ¬ Beyond eps dt (t0 + (k : ℕ) * dt) t1 → k < j := by
    intro k j h1 h2
    rw [not_beyond_iff] at h2
    by_contra hle
    have h3 : (j : K) ≤ k := by exact_mod_cast Nat.not_lt.mp hle
    have h4 := mul_le_mul_of_nonneg_right h3 hd0.le
    have e2 : dirSign dt * (t0 + (k : K) * dt - t1) = dirSign dt * (t0 + (j : K) * dt - t1) +
      ((k : K) * (dirSign dt * dt) - j * (dirSign dt * dt)) := by ring
    rw [e1] at e2; linarith
  have hpos := h.step_pos
  have hshort := h.short hng
  have hmem : ∀ (l : List (S × K)) (m : ℕ),
      l.map Prod.snd = (List.range m).map (fun k : ℕ => t0 + (k + 1 : ℕ) * dt) →
      (∀ b ∈ l, ¬ Beyond (4 * eps) dt b.2 t1) →
      ∀ k < m, ¬ Beyond (4 * eps) dt (t0 + (k + 1 : ℕ) * dt) t1 := by
    intro l m h1 h2 k hk
    have : t0 + (k + 1 : ℕ) * dt ∈ l.map Prod.snd := by
      rw [h1]; exact List.mem_map.mpr ⟨k, List.mem_range.mpr hk, rfl⟩
    obtain ⟨b, hb, hb2⟩ := List.mem_map.mp this
    rw [← hb2]; exact h2 b hb
  rcases hcases with ⟨hle, y, hy, hw', hr⟩ | ⟨hgt, hw', hr⟩
  · have htimes : (obs ++ [(y, s.time)]).map Prod.snd =
        (List.range s.step).map (fun k : ℕ => t0 + (k + 1 : ℕ) * dt) := by
      rw [List.map_append, h.obs_times, h.time]
      obtain ⟨m, hm⟩ : ∃ m, s.step = m + 1 := ⟨s.step - 1, by omega⟩
      rw [hm]
      simp only [Nat.add_sub_cancel, List.range_succ, List.map_append, List.map_cons, List.map_nil]
    refine ⟨new ++ [.calc s.time] ++ [.obs y s.time], obs ++ [(y, s.time)], s.step, ?_, ?_, htimes, ?_,
      hmem _ _ htimes ?_, ?_⟩
    · rw [hw', h.log]; simp
    · rw [observations_append, observations_append, h.observations]; simp [Log.observations]
    · intro k hk
      have := hbey (k + 1) (s.step + 1) (by
        rw [h.time] at hc
        have : t0 + ((s.step + 1 : ℕ) : K) * dt = t0 + s.step * dt + dt := by push_cast; ring
        rw [this]; exact hc) hk
      omega
    · intro b hb
      rcases List.mem_append.mp hb with hb | hb
      · exact hshort b hb
      · simp only [List.mem_singleton] at hb
        subst hb
        rw [not_beyond_iff] at hle ⊢
        simp only; linarith
    · intro b hb
      rcases List.mem_append.mp hb with hb | hb
      · rw [List.append_assoc]; exact ((h.inside b hb).append _).weaken (by linarith)
      · simp only [List.mem_singleton] at hb
        subst hb
        have hreal : 0 < s.real := by
          rcases hor with h1 | h1
          · exact h1
          · exfalso
            rw [h1] at hc
            rw [not_beyond_iff] at htwo
            have : t0 + dt + dt = t0 + 2 * dt := by ring
            rw [this] at hc; linarith
        rcases h.latest with ⟨h1, -⟩ | ⟨-, q1, h1, h2⟩
        · omega
        · refine ⟨q1, s.q, new, [], by simp, h1, hy, ?_, ?_⟩
          · rw [not_beyond_iff] at h2 ⊢; simp only; linarith
          · rw [not_beyond_iff] at hle ⊢
            have e3 : dirSign dt * (s.time - p.curTime s.q) = dirSign dt * (s.time - t1) +
              dirSign dt * (t1 - p.curTime s.q) := by ring
            rcases hH.reached with g | g | g
            · omega
            · have : dirSign dt * (s.time - p.curTime s.q) = - (dirSign dt * (p.curTime s.q - s.time)) := by
                ring
              simp only; rw [this]; linarith
            · have := g hex
              simp only; rw [e3]; linarith
  · refine ⟨new, obs, s.step - 1, by rw [hw']; exact h.log, h.observations, h.obs_times, ?_,
      hmem _ _ h.obs_times hshort, fun b hb => (h.inside b hb).weaken (by linarith)⟩
    intro k hk
    rw [beyond_iff, h.time] at hgt
    have := hbey (k + 1) s.step hgt hk
    omega

/-- **C10** (exception): the observer has seen an initial part of the grid, interpolated in the same way. -/
theorem integrate_const_dense_exception [Archimedean K] (eps : K) (heps : 0 ≤ eps) (p : PureDense Q S K)
    (hp : DenseContract p) (q : Q) (x : S) (t0 t1 dt : K) (hdt : eps < |dt|) (w w' : Log S K) (e : Err)
    (hrun : integrateConstDense (TimeArith.exact K eps) (loggedDense p) record q x t0 t1 dt w =
      .err e w') :
    ∃ (new : Log S K) (obs : List (S × K)) (m : ℕ), w' = w ++ new ∧
      (new.observations = [] ∧ obs = [] ∨ new.observations = (x, t0) :: obs) ∧
      obs.map Prod.snd = (List.range m).map (fun k : ℕ => t0 + (k + 1 : ℕ) * dt) ∧
      ∀ b ∈ obs, InsideStep p eps dt new b.1 b.2 :=
  (constDense_sat eps heps p hp q x t0 t1 dt hdt w).of_err hrun

/-! ### Termination -/

/-- the part of the invariant that is needed for termination -/
structure CTot (p : PureDense Q S K) (g dt t0 t1 : K) (s : DenseState Q S K) : Prop where
  dir : SameDir dt (p.curDt s.q)
  time : s.time = t0 + s.step * dt
  size : g ≤ |p.curDt s.q| ∨ p.curTime s.q = t1

theorem const_body_total [Archimedean K] {p : PureDense Q S K} (hp : DenseContract p) {eps dt g : K}
    (heps : 0 ≤ eps) (hdt : eps < |dt|) (hg : 0 < g) (hpr : MinProgress p g) {t0 t1 : K}
    {s : DenseState Q S K} {w1 : Log S K} (hT : CTot p g dt t0 t1 s)
    (hcond : dirSign dt * (s.time + dt - t1) ≤ eps) :
    (constDenseBody (TimeArith.exact K eps) (loggedDense p) t0 t1 dt s w1).Sat
      (fun s' _ => CTot p g dt t0 t1 s' ∧
        stepsLeft |dt| (dirSign dt * (t1 - s'.time)) + stepsLeft g (dirSign dt * (t1 - p.curTime s'.q)) <
        stepsLeft |dt| (dirSign dt * (t1 - s.time)) + stepsLeft g (dirSign dt * (t1 - p.curTime s.q)))
      (fun _ _ => True) False := by
  have hd0 : 0 < |dt| := lt_of_le_of_lt heps hdt
  have hdt0 : dt ≠ 0 := abs_pos.mp hd0
  have e1 := dirSign_mul_self dt
  have hct : dirSign dt * (s.time + dt - t1) = |dt| - dirSign dt * (t1 - s.time) := by rw [← e1]; ring
  apply Res.Sat.bind
  -- the observation loop
  refine Res.Sat.mono (Q := fun s' _ => s'.q = s.q ∧ s.step ≤ s'.step ∧
      s'.time = t0 + s'.step * dt ∧ eps < dirSign dt * (s'.time - p.curTime s.q))
    (E := fun _ _ => True) (D := False) ?_ ?_ (fun _ _ h => h) id
  · refine (whileM_sat_total (W := Log S K)
      (I := fun s' w' => s'.q = s.q ∧ s.step ≤ s'.step ∧ s'.time = t0 + s'.step * dt)
      (E := fun _ w' => True) (D := False)
      (μ := fun s' _ => stepsLeft |dt| (dirSign dt * (p.curTime s.q - s'.time) + eps + |dt|)) ?_
      ⟨rfl, le_rfl, hT.time⟩).mono ?_ (fun _ _ h => h) id
    · rintro ⟨q1, x1, time, step, real⟩ w2 ⟨h1, h2, h3⟩ hc
      simp only at h1 h2 h3
      subst h1
      have hc' : dirSign dt * (time - p.curTime s.q) ≤ eps := (exact_lessEq _ _ _ _).mp hc
      have hcneg : dirSign dt * (p.curTime s.q - time) = - (dirSign dt * (time - p.curTime s.q)) := by ring
      apply Res.Sat.bind
      apply logCall_sat
      · intro y hy
        rw [record_bind]
        have hnext : t0 + ((step + 1 : ℕ) : K) * dt = time + dt := by rw [h3]; push_cast; ring
        refine ⟨⟨rfl, by simp only; omega, by simp [TimeArith.exact]⟩, ?_⟩
        apply stepsLeft_lt hd0
        · rw [hcneg]; linarith
        · simp only [TimeArith.exact]
          rw [hnext]
          have : dirSign dt * (p.curTime s.q - (time + dt)) =
            dirSign dt * (p.curTime s.q - time) - dirSign dt * dt := by ring
          rw [this, e1]; linarith
      · intro _ _; trivial
    · rintro s' w' ⟨⟨h1, h2, h3⟩, hc⟩
      refine ⟨h1, h2, h3, ?_⟩
      rw [← h1]; exact (exact_lessEq_false _ _ _ _).mp hc
  rintro ⟨q1, x1, time, step, real⟩ w2 ⟨h1, hle, ht, hcur⟩
  simp only at h1 hle ht hcur
  subst h1
  have hdir := hT.dir
  have hsgn := dirSign_of_sameDir hdir
  have hcneg : dirSign dt * (p.curTime s.q - time) = - (dirSign dt * (time - p.curTime s.q)) := by ring
  have hmono : stepsLeft |dt| (dirSign dt * (t1 - time)) ≤ stepsLeft |dt| (dirSign dt * (t1 - s.time)) := by
    apply stepsLeft_mono hd0
    have h2 : (s.step : K) ≤ step := by exact_mod_cast hle
    have h3 := mul_le_mul_of_nonneg_right h2 hd0.le
    have : dirSign dt * (t1 - time) = dirSign dt * (t1 - s.time) - (step * (dirSign dt * dt) -
      s.step * (dirSign dt * dt)) := by rw [ht, hT.time]; ring
    rw [this, e1]; linarith
  simp only
  split_ifs with h1 h2
  · have h1' : eps < dirSign dt * (t1 - (p.curTime s.q + p.curDt s.q)) := by
      rw [hsgn]; exact (exact_less _ _ _ _).mp h1
    have hdp := (sameDir_iff hdt0).mp hdir
    have hfar : 0 < dirSign dt * (t1 - p.curTime s.q) := by
      have : dirSign dt * (t1 - p.curTime s.q) =
        dirSign dt * (t1 - (p.curTime s.q + p.curDt s.q)) + dirSign dt * p.curDt s.q := by ring
      linarith
    have hsz : g ≤ |p.curDt s.q| := by
      rcases hT.size with h | h
      · exact h
      · rw [h] at hfar; simp at hfar
    rw [whileM_true (cond := fun s : DenseState Q S K => (TimeArith.exact K eps).lessEqWithSign
      ((loggedDense p).curTime s.q) s.time dt) ((exact_lessEq _ _ _ _).mpr (by
        change dirSign dt * (p.curTime s.q - time) ≤ eps; linarith))]
    -- a step of a stepper whose step size is at least `g`
    have hprog : ∀ q1 q', p.doStep q1 = .ok q' → SameDir dt (p.curDt q1) → g ≤ |p.curDt q1| →
        SameDir dt (p.curDt q') ∧ g ≤ |p.curDt q'| ∧ g ≤ dirSign dt * (p.curTime q' - p.curTime q1) := by
      intro q1 q' hq hd hgq
      obtain ⟨a1, a2, a3, a4⟩ := advance_sign hp hd hq
      have hnx := hpr.next _ _ hq hd.ne_zero
      have : g ≤ |p.curTime q' - p.curTime q1| := by
        rcases hpr.adv _ _ hq hd.ne_zero with h | h
        · rw [h, add_sub_cancel_left]; exact hgq
        · exact h
      rw [min_eq_left this] at hnx
      exact ⟨a1, hnx, by rw [a3]; exact this⟩
    apply Res.Sat.bind
    apply Res.Sat.bind
    apply logCall_sat
    swap
    · intro e _; trivial
    intro q' hq'
    obtain ⟨a1, a2, a3⟩ := hprog _ _ hq' hdir hsz
    refine (whileM_sat_total (W := Log S K) (I := fun s' _ => SameDir dt (p.curDt s'.q) ∧
        g ≤ |p.curDt s'.q| ∧ s'.time = time ∧ s'.step = step ∧
        dirSign dt * (p.curTime s.q - p.curTime s'.q) + g ≤ 0)
      (E := fun _ _ => True) (D := False)
      (μ := fun s' _ => stepsLeft g (dirSign dt * (time - p.curTime s'.q) + eps + g)) ?_
      ⟨a1, a2, rfl, rfl, ?_⟩).mono ?_
      (fun _ _ h => h) id
    · rintro s2 w3 ⟨g1, g2, g3, g4, g5⟩ hc2
      have hc2' : dirSign dt * (p.curTime s2.q - s2.time) ≤ eps := (exact_lessEq _ _ _ _).mp hc2
      rw [g3] at hc2'
      have hcn : dirSign dt * (p.curTime s2.q - time) = - (dirSign dt * (time - p.curTime s2.q)) := by ring
      apply Res.Sat.bind
      apply logCall_sat
      · intro q3 hq3
        obtain ⟨b1, b2, b3⟩ := hprog _ _ hq3 g1 g2
        refine ⟨⟨b1, b2, g3, g4, ?_⟩, ?_⟩
        · have : dirSign dt * (p.curTime s.q - p.curTime q3) =
            dirSign dt * (p.curTime s.q - p.curTime s2.q) - dirSign dt * (p.curTime q3 - p.curTime s2.q) := by
            ring
          simp only; rw [this]; linarith
        · apply stepsLeft_lt hg
          · linarith
          · have : dirSign dt * (time - p.curTime q3) = dirSign dt * (time - p.curTime s2.q) -
              dirSign dt * (p.curTime q3 - p.curTime s2.q) := by ring
            simp only; rw [this]; linarith
      · intro _ _; trivial
    · have : dirSign dt * (p.curTime s.q - p.curTime q') = - (dirSign dt * (p.curTime q' - p.curTime s.q)) := by
        ring
      simp only; rw [this]; linarith
    · rintro s2 w3 ⟨⟨g1, g2, g3, g4, g5⟩, hc2⟩
      refine ⟨⟨g1, by rw [g3, g4, ht], .inl g2⟩, ?_⟩
      rw [g3]
      have : stepsLeft g (dirSign dt * (t1 - p.curTime s2.q)) <
          stepsLeft g (dirSign dt * (t1 - p.curTime s.q)) := by
        apply stepsLeft_lt hg hfar
        have : dirSign dt * (t1 - p.curTime s2.q) = dirSign dt * (t1 - p.curTime s.q) +
          dirSign dt * (p.curTime s.q - p.curTime s2.q) := by ring
        rw [this]; linarith
      omega
  · have h2' : eps < dirSign dt * (t1 - p.curTime s.q) := by
      rw [hsgn]; exact (exact_less _ _ _ _).mp h2
    have hsz : g ≤ |p.curDt s.q| := by
      rcases hT.size with h | h
      · exact h
      · rw [h] at h2'; simp at h2'; linarith
    apply Res.Sat.bind
    apply logCall_sat
    swap
    · intro e _; trivial
    intro q1 hq1
    obtain ⟨b1, b2, b3, b4⟩ := init_rest hp hdt0 heps h2' hq1
    apply Res.Sat.bind
    apply logCall_sat
    swap
    · intro e _; trivial
    intro q' hq'
    obtain ⟨a1, a2, a3, a4⟩ := advance_sign hp b1 hq'
    rcases progress_step hpr hq' b2 b1 (d := p.curDt s.q) (.inr b4) hsz with ⟨c1, c2⟩ | c1
    · refine ⟨⟨a1, ht, .inl c2⟩, ?_⟩
      have : stepsLeft g (dirSign dt * (t1 - p.curTime q')) <
          stepsLeft g (dirSign dt * (t1 - p.curTime s.q)) := by
        apply stepsLeft_lt hg (by linarith)
        rw [b2] at a3
        have : dirSign dt * (t1 - p.curTime q') = dirSign dt * (t1 - p.curTime s.q) -
          dirSign dt * (p.curTime q' - p.curTime s.q) := by ring
        rw [this, a3]; linarith
      simp only; omega
    · refine ⟨⟨a1, ht, .inr c1⟩, ?_⟩
      have h3 := stepsLeft_pos hg (lt_of_le_of_lt heps h2')
      have h4 : stepsLeft g (dirSign dt * (t1 - p.curTime q')) = 0 :=
        stepsLeft_nonpos (by rw [c1]; simp)
      simp only; omega
  · have h2' : dirSign dt * (t1 - p.curTime s.q) ≤ eps := by
      rw [hsgn]; exact (exact_less_false _ _ _ _).mp (Bool.eq_false_iff.mpr h2)
    refine ⟨⟨hdir, ht, hT.size⟩, ?_⟩
    have : stepsLeft |dt| (dirSign dt * (t1 - time)) < stepsLeft |dt| (dirSign dt * (t1 - s.time)) := by
      have hpos : 0 < dirSign dt * (t1 - s.time) := by linarith
      have h3 : dirSign dt * (t1 - time) ≤ 0 := by
        have : dirSign dt * (t1 - time) = dirSign dt * (t1 - p.curTime s.q) -
          dirSign dt * (time - p.curTime s.q) := by ring
        rw [this]; linarith
      rw [stepsLeft_nonpos h3]
      exact stepsLeft_pos hd0 hpos
    simp only; omega

/-- **C10** (termination).  If `eps < |dt|` and the stepper makes progress (`MinProgress`, with
`g ≤ |dt|`), `integrate_const` returns or throws. -/
theorem integrate_const_dense_terminates [Archimedean K] (eps : K) (heps : 0 ≤ eps) (p : PureDense Q S K)
    (hp : DenseContract p) (g : K) (hg : 0 < g) (hpr : MinProgress p g) (q : Q) (x : S) (t0 t1 dt : K)
    (hgdt : g ≤ |dt|) (hdt : eps < |dt|) (w : Log S K) :
    (∃ r w', integrateConstDense (TimeArith.exact K eps) (loggedDense p) record q x t0 t1 dt w =
      .ok r w') ∨
    (∃ e w', integrateConstDense (TimeArith.exact K eps) (loggedDense p) record q x t0 t1 dt w =
      .err e w') := by
  have hd0 : 0 < |dt| := lt_of_le_of_lt heps hdt
  have hdt0 : dt ≠ 0 := abs_pos.mp hd0
  have key : (integrateConstDense (TimeArith.exact K eps) (loggedDense p) record q x t0 t1 dt w).Sat
      (fun _ _ => True) (fun _ _ => True) False := by
    unfold integrateConstDense
    apply Res.Sat.bind
    apply logCall_sat
    swap
    · intro e _; trivial
    intro q0 hq0
    rw [record_bind]
    apply Res.Sat.bind
    refine (whileM_sat_total (W := Log S K) (fun s _ => CTot p g dt t0 t1 s)
      (E := fun _ _ => True) (D := False)
      (μ := fun s _ => stepsLeft |dt| (dirSign dt * (t1 - s.time)) +
        stepsLeft g (dirSign dt * (t1 - p.curTime s.q))) ?_ ?_).mono ?_ (fun _ _ h => h) id
    · intro s w2 hT hc
      exact const_body_total hp heps hdt hg hpr hT ((exact_lessEq _ _ _ _).mp hc)
    · have e3 := hp.init_dt _ _ _ _ _ hq0
      exact ⟨by simp only [e3]; exact SameDir.refl hdt0, by simp [TimeArith.exact],
        .inl (by simp only [e3]; exact hgdt)⟩
    · rintro s w2 -
      split_ifs
      · apply Res.Sat.bind
        apply logCall_sat
        · intro y _; rw [record_bind]; trivial
        · intro _ _; trivial
      · trivial
  revert key
  cases integrateConstDense (TimeArith.exact K eps) (loggedDense p) record q x t0 t1 dt w with
  | ok r w' => intro _; exact .inl ⟨r, w', rfl⟩
  | err e w' => intro _; exact .inr ⟨e, w', rfl⟩
  | ub => intro h; exact h.elim
  | div => intro h; exact h.elim

/-- **C10 is violated when exactly one interval fits.**  For every dense output stepper: if `t0+dt` is not
beyond `t1` but `t0+2*dt` is, `integrate_const` calls `calc_state(t0+dt)` on the freshly initialised
stepper, without a single `do_step`, and passes the result to the observer. -/
theorem integrate_const_dense_one_interval (eps : K) (p : PureDense Q S K)
    (q q0 : Q) (x y : S) (t0 t1 dt : K) (h1 : ¬ Beyond eps dt (t0 + dt) t1)
    (h2 : Beyond eps dt (t0 + 2 * dt) t1) (hinit : p.init q x t0 dt = .ok q0)
    (hcalc : p.calcState q0 (t0 + dt) = .ok y) (w : Log S K) :
    integrateConstDense (TimeArith.exact K eps) (loggedDense p) record q x t0 t1 dt w =
      .ok (y, 0) (w ++ [.init x t0 dt, .obs x t0, .calc (t0 + dt), .obs y (t0 + dt)]) := by
  unfold integrateConstDense
  have hi : (loggedDense p).init q x t0 dt w = .ok q0 (w ++ [.init x t0 dt]) := logCall_ok hinit w
  have hcl : ∀ w, (loggedDense p).calcState q0 (t0 + dt) w = .ok y (w ++ [.calc (t0 + dt)]) :=
    fun w => logCall_ok hcalc w
  rw [M.bind_ok hi, record_bind]
  rw [M.bind_ok (whileM_stop (cond := fun s : DenseState Q S K =>
    (TimeArith.exact K eps).lessEqWithSign ((TimeArith.exact K eps).add s.time dt) t1 dt) ?_)]
  · refine ite_pos_eval ((exact_lessEq _ _ _ _).mpr ((not_beyond_iff _ _ _ _).mp h1)) ?_
    refine (M.bind_ok (hcl _) _).trans ?_
    rw [record_bind]
    simp [M.pure_apply, TimeArith.exact]
  · rw [exact_lessEq_false]
    rw [beyond_iff] at h2
    change eps < dirSign dt * (t0 + dt + dt - t1)
    have : t0 + dt + dt = t0 + 2 * dt := by ring
    rw [this]; exact h2

end

/-- The one-interval case is met, for example, by `t0 = 0`, `t1 = 3/2`, `dt = 1`. -/
example : ¬ Beyond (0:ℚ) 1 (0 + 1) (3/2) ∧ Beyond (0:ℚ) 1 (0 + 2 * 1) (3/2) := by
  norm_num [Beyond]

/-- **C10 is violated when the step size grows.**  With a contract-abiding dense output stepper that
quadruples its step size after each step, `integrate_const` from `0` to `2` with `dt = 1` calls the
observer at `0, 1, 2, 3, 4, 5`: at grid points beyond the end time. -/
theorem integrate_const_dense_overshoot :
    ∃ r w', integrateConstDense (TimeArith.exact ℚ 0) (loggedDense (rampDense 4)) record (0, 0, 0) 0 0 2 1 [] =
      .ok r w' ∧ w'.observations.map Prod.snd = [0, 1, 2, 3, 4, 5] := by
  apply exists_eval
  · unfold integrateConstDense
    run_eval
  · norm_num [Log.observations, rampDense, loggedDense, TimeArith.exact, List.filterMap_cons]

/-- Non-vacuity of `integrate_const_dense_fixed_step`: a fixed-step dense output stepper, two and a half
intervals. -/
example : DenseContract (rampDense (1:ℚ)) ∧ ExactSteps (rampDense (1:ℚ)) ∧ NonGrowing (rampDense (1:ℚ)) ∧
    ¬ Beyond (0:ℚ) 1 (0 + 2 * 1) (5/2) ∧
    ∃ r w', integrateConstDense (TimeArith.exact ℚ 0) (loggedDense (rampDense 1)) record (0, 0, 0) 0 0 (5/2) 1
      [] = .ok r w' ∧ w'.observations = [(0, 0), (1, 1), (2, 2)] := by
  refine ⟨rampDense_contract 1 one_pos, ?_, ?_, by norm_num [Beyond], ?_⟩
  · rintro q q' ⟨⟩; rfl
  · rintro q q' ⟨⟩; simp [rampDense]
  · apply exists_eval
    · unfold integrateConstDense
      run_eval
    · norm_num [Log.observations, rampDense, loggedDense, TimeArith.exact, List.filterMap_cons]

end Verif
