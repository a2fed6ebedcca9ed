import Verif.Props.DenseAdaptive
import Verif.Lemmas.RunEval

/-!
# C09: integrate_times with a dense output stepper
-/

namespace Verif
variable {Q S : Type}

section
variable {K : Type} [Field K] [LinearOrder K] [IsStrictOrderedRing K]

theorem Interpolated.append {p : PureDense Q S K} {eps dt : K} {w : Log S K} {y : S} {τ : K}
    (h : Interpolated p eps dt w y τ) (l : Log S K) : Interpolated p eps dt (w ++ l) y τ := by
  obtain ⟨q, q', pre, mid, post, h1, h2⟩ := h
  exact ⟨q, q', pre, mid, post ++ l, by rw [h1]; simp, h2⟩

theorem LatestStep.append {p : PureDense Q S K} {w : Log S K} {q q' : Q} (h : LatestStep p w q q')
    {l : Log S K} (hl : ∀ e ∈ l, e.isPassive = true) : LatestStep p (w ++ l) q q' := by
  obtain ⟨pre, mid, h1, h2, h3⟩ := h
  refine ⟨pre, mid ++ l, by rw [h1]; simp, ?_, h3⟩
  intro e he
  rcases List.mem_append.mp he with h | h
  · exact h2 e h
  · exact hl e h

/-- No step leads beyond `last` (as proposed). -/
def StepsWithin (eps dt last : K) (w : Log S K) : Prop :=
  ∀ e ∈ w, ∀ x t d, e = .step x t d → ¬ Beyond eps dt (t + d) last

/-- Where an observed state comes from: from interpolation if the time is beyond the start time,
otherwise from the freshly initialised stepper. -/
def DenseObserved (p : PureDense Q S K) (eps dt : K) (q : Q) (x : S) (t0 : K) (w : Log S K)
    (b : S × K) : Prop :=
  (Beyond eps dt b.2 t0 → Interpolated p eps dt w b.1 b.2) ∧
  (¬ Beyond eps dt b.2 t0 → ∃ q0, p.init q x t0 dt = .ok q0 ∧ p.calcState q0 b.2 = .ok b.1)

theorem DenseObserved.append {p : PureDense Q S K} {eps dt : K} {q : Q} {x : S} {t0 : K} {w : Log S K}
    {b : S × K} (h : DenseObserved p eps dt q x t0 w b) (l : Log S K) :
    DenseObserved p eps dt q x t0 (w ++ l) b :=
  ⟨fun hb => (h.1 hb).append l, h.2⟩

/-- Loop invariant: `obs` have been observed (after the first observation), `s.rest` remain. -/
structure DTInv (p : PureDense Q S K) (eps dt : K) (q : Q) (x : S) (t0 last : K) (times : List K)
    (w : Log S K) (s : DenseTimesState Q S K) (w' new : Log S K) (obs : List (S × K)) : Prop where
  log : w' = w ++ new
  observations : new.observations = (x, t0) :: obs
  times_eq : obs.map Prod.snd ++ s.rest = times
  state : s.x = (obs.getLast?.map Prod.fst).getD x
  observed : ∀ b ∈ obs, DenseObserved p eps dt q x t0 new b
  within : StepsWithin eps dt last new
  count : new.stepCount = s.count
  dir : SameDir dt (p.curDt s.q)
  latest : (s.count = 0 ∧ p.init q x t0 dt = .ok s.q) ∨
    (0 < s.count ∧ ∃ q1, LatestStep p new q1 s.q ∧ ∀ τ ∈ s.rest, Beyond eps dt τ (p.curTime q1) ∧
      Beyond eps dt τ t0)

theorem StepsWithin.append {eps dt last : K} {w l : Log S K} (h : StepsWithin eps dt last w)
    (hl : StepsWithin eps dt last l) : StepsWithin eps dt last (w ++ l) := by
  intro e he
  rcases List.mem_append.mp he with he | he
  · exact h e he
  · exact hl e he

/-- What holds when an exception escapes. -/
def DTErr (p : PureDense Q S K) (eps dt : K) (q : Q) (x : S) (t0 last : K) (times : List K)
    (w w' : Log S K) : Prop :=
  ∃ new obs, w' = w ++ new ∧ (new.observations = [] ∧ obs = [] ∨ new.observations = (x, t0) :: obs) ∧
    obs.map Prod.snd <+: times ∧ (∀ b ∈ obs, DenseObserved p eps dt q x t0 new b) ∧
    StepsWithin eps dt last new

theorem DTInv.toErr {p : PureDense Q S K} {eps dt : K} {q : Q} {x : S} {t0 last : K} {times : List K}
    {w : Log S K} {s : DenseTimesState Q S K} {w' new : Log S K} {obs : List (S × K)}
    (h : DTInv p eps dt q x t0 last times w s w' new obs) (l : Log S K) (hl : StepsWithin eps dt last l)
    (ho : l.observations = []) : DTErr p eps dt q x t0 last times w (w' ++ l) :=
  ⟨new ++ l, obs, by rw [h.log]; simp, .inr (by rw [observations_append, h.observations, ho]; simp),
    ⟨s.rest, h.times_eq⟩, fun b hb => (h.observed b hb).append l, h.within.append hl⟩

/-- The inner loop observes all remaining times up to the current time. -/
theorem denseTimes_inner_sat {p : PureDense Q S K} (hp : DenseContract p) {eps dt : K}
    {q : Q} {x : S} {t0 last : K} {times : List K} {w : Log S K} {s : DenseTimesState Q S K}
    {w1 : Log S K} (hI : ∃ new obs, DTInv p eps dt q x t0 last times w s w1 new obs) :
    (whileM (fun s : DenseTimesState Q S K => headLessEq (TimeArith.exact K eps) s.rest
        ((loggedDense p).curTime s.q) ((loggedDense p).curDt s.q))
      (denseTimesObserve (loggedDense p) record) s w1).Sat
      (fun s' w' => (∃ new obs, DTInv p eps dt q x t0 last times w s' w' new obs) ∧ s'.q = s.q ∧
        s'.count = s.count ∧ s'.rest <:+ s.rest ∧
        ∀ τ l, s'.rest = τ :: l → Beyond eps dt τ (p.curTime s.q))
      (fun _ w' => DTErr p eps dt q x t0 last times w w') False := by
  refine (whileM_sat_total (W := Log S K)
    (I := fun s' w' => (∃ new obs, DTInv p eps dt q x t0 last times w s' w' new obs) ∧ s'.q = s.q ∧
      s'.count = s.count ∧ s'.rest <:+ s.rest)
    (E := fun _ w' => DTErr p eps dt q x t0 last times w w') (D := False)
    (μ := fun s' _ => s'.rest.length) ?_ ⟨hI, rfl, rfl, List.suffix_rfl⟩).mono ?_ (fun _ _ h => h) id
  · rintro ⟨q1, x1, rest, n1⟩ w2 ⟨⟨new, obs, h⟩, rfl, rfl, hsuf⟩ hc
    have hdir := h.dir
    simp only at hdir hc hsuf ⊢
    cases rest with
    | nil => simp [headLessEq] at hc
    | cons τ l =>
      have hle : ¬ Beyond eps dt τ (p.curTime s.q) := by
        rw [not_beyond_iff, dirSign_of_sameDir hdir]
        exact (exact_lessEq _ _ _ _).mp hc
      unfold denseTimesObserve
      simp only
      apply Res.Sat.bind
      apply logCall_sat
      · intro y hy
        rw [record_bind]
        refine ⟨⟨⟨new ++ [.calc τ, .obs y τ], obs ++ [(y, τ)], ?_, ?_, ?_, ?_, ?_, ?_, ?_, hdir, ?_⟩, rfl, rfl,
          (List.suffix_cons τ l).trans hsuf⟩, by simp⟩
        · rw [h.log]; simp
        · rw [observations_append, h.observations]; simp [Log.observations]
        · rw [← h.times_eq]; simp
        · simp
        · intro b hb
          rcases List.mem_append.mp hb with hb | hb
          · exact (h.observed b hb).append _
          · simp only [List.mem_singleton] at hb
            subst hb
            rcases h.latest with ⟨h0, hinit⟩ | ⟨h0, q2, ⟨pre, mid, g1, g2, g3⟩, hb2⟩
            · have ht := hp.init_time _ _ _ _ _ hinit
              simp only at ht
              rw [ht] at hle
              exact ⟨fun hb => absurd hb hle, fun _ => ⟨_, hinit, hy⟩⟩
            · have := hb2 τ (by simp)
              refine ⟨fun _ => ⟨q2, _, pre, mid, [], by rw [g1]; simp, g2, g3, hy, this.1, hle⟩,
                fun hb => absurd this.2 hb⟩
        · refine h.within.append ?_
          intro e he x' t' d' heq
          subst heq
          simp at he
        · rw [stepCount_append, h.count]; simp [Log.stepCount]
        · rcases h.latest with ⟨h0, hinit⟩ | ⟨h0, q2, hls, hb2⟩
          · exact .inl ⟨h0, hinit⟩
          · refine .inr ⟨h0, q2, hls.append ?_, fun τ' hτ' => hb2 τ' (List.mem_cons_of_mem _ hτ')⟩
            simp [Event.isPassive]
      · intro e _
        refine h.toErr _ ?_ (by simp [Log.observations])
        intro e he x' t' d' heq
        subst heq
        simp at he
  · rintro s' w' ⟨⟨hI', hq, hn, hsuf⟩, hc⟩
    refine ⟨hI', hq, hn, hsuf, ?_⟩
    obtain ⟨new, obs, h⟩ := hI'
    intro τ l hτ
    rw [hτ] at hc
    have hc' := (exact_lessEq_false _ _ _ _).mp (show (TimeArith.exact K eps).lessEqWithSign τ
      (p.curTime s'.q) (p.curDt s'.q) = false from hc)
    rw [beyond_iff, dirSign_of_sameDir h.dir, ← hq]
    exact hc'

theorem getLastD_of_suffix {α : Type} {l l' : List α} {d : α} (h : l' <:+ l) (hne : l' ≠ []) :
    l.getLastD d = l'.getLast hne := by
  obtain ⟨pre, rfl⟩ := h
  cases hl : pre ++ l' with
  | nil => simp at hl; exact absurd hl.2 hne
  | cons a b =>
    rw [List.getLastD_eq_getLast?, List.getLast?_eq_some_getLast (by simp)]
    simp only [Option.getD_some]
    have : (pre ++ l').getLast (by simp [hne]) = l'.getLast hne := List.getLast_append_of_ne_nil _ _
    rw [← this]
    congr 1
    exact hl.symm

/-- In a monotone list no element is beyond the last one, nor before the first one. -/
theorem MonotoneTimes.le_last {dt : K} {l : List K} (h : MonotoneTimes dt l) (hne : l ≠ []) :
    ∀ τ ∈ l, 0 ≤ dirSign dt * (l.getLast hne - τ) := by
  induction l with
  | nil => exact absurd rfl hne
  | cons a l ih =>
    intro τ hτ
    cases l with
    | nil => simp at hτ; subst hτ; simp
    | cons b l =>
      have h2 := (List.pairwise_cons.mp h)
      rw [List.getLast_cons (by simp)]
      rcases List.mem_cons.mp hτ with rfl | hτ
      · have := h2.1 _ (List.getLast_mem (l := b :: l) (by simp))
        unfold dirSign
        split_ifs at this ⊢ with hpos
        · linarith
        · linarith
      · exact ih h2.2 (by simp) τ hτ

theorem MonotoneTimes.head_le {dt a : K} {l : List K} (h : MonotoneTimes dt (a :: l)) :
    ∀ τ ∈ l, 0 ≤ dirSign dt * (τ - a) := by
  intro τ hτ
  have := (List.pairwise_cons.mp h).1 τ hτ
  unfold dirSign
  split_ifs at this ⊢ with hpos <;> linarith

theorem beyond_of_head {eps dt a τ c : K} (h : Beyond eps dt a c) (hle : 0 ≤ dirSign dt * (τ - a)) :
    Beyond eps dt τ c := by
  rw [beyond_iff] at *
  have : dirSign dt * (τ - c) = dirSign dt * (τ - a) + dirSign dt * (a - c) := by ring
  linarith

/-- One round of the outer loop. -/
theorem denseTimesBody_sat {p : PureDense Q S K} (hp : DenseContract p) {eps dt : K} (heps : 0 ≤ eps)
    (hdt : dt ≠ 0) {q : Q} {x : S} {t0 : K} {times : List K} (hmono : MonotoneTimes dt (t0 :: times))
    {w : Log S K} {s : DenseTimesState Q S K} {w1 : Log S K}
    (hI : ∃ new obs, DTInv p eps dt q x t0 (times.getLastD t0) times w s w1 new obs) :
    (denseTimesBody (TimeArith.exact K eps) (loggedDense p) record (times.getLastD t0) s w1).Sat
      (fun s' w' => (∃ new obs, DTInv p eps dt q x t0 (times.getLastD t0) times w s' w' new obs) ∧
        s'.rest <:+ s.rest ∧ s.count ≤ s'.count ∧
        (s'.rest = [] ∨
          (s'.count = s.count + 1 ∧ eps < dirSign dt * (times.getLastD t0 - p.curTime s.q) ∧
            ∃ q1, p.doStep q1 = .ok s'.q ∧ p.curTime q1 = p.curTime s.q ∧ SameDir dt (p.curDt q1) ∧
              (p.curDt q1 = p.curDt s.q ∨ p.curDt q1 = times.getLastD t0 - p.curTime s.q))))
      (fun _ w' => DTErr p eps dt q x t0 (times.getLastD t0) times w w') False := by
  unfold denseTimesBody
  apply Res.Sat.bind
  refine (denseTimes_inner_sat hp hI).mono ?_ (fun _ _ h => h) id
  rintro s1 w2 ⟨⟨new, obs, h⟩, hq, hn, hsuf, hhead⟩
  generalize hlast : times.getLastD t0 = last at *
  have hmono2 : MonotoneTimes dt s1.rest := by
    have : s1.rest <:+ t0 :: times := by
      rw [← h.times_eq, ← List.cons_append]; exact List.suffix_append _ _
    exact List.Pairwise.sublist this.sublist hmono
  -- all remaining times are beyond the current time
  have hall : ∀ τ ∈ s1.rest, Beyond eps dt τ (p.curTime s1.q) := by
    intro τ hτ
    rw [hq]
    cases hr : s1.rest with
    | nil => rw [hr] at hτ; cases hτ
    | cons a l =>
      have ha := hhead a l hr
      rw [hr] at hτ hmono2
      rcases List.mem_cons.mp hτ with rfl | hτ
      · exact ha
      · exact beyond_of_head ha (hmono2.head_le τ hτ)
  have hall0 : ∀ τ ∈ s1.rest, Beyond eps dt τ t0 := by
    intro τ hτ
    rcases h.latest with ⟨_, hinit⟩ | ⟨_, q2, _, hb2⟩
    · have ht := hp.init_time _ _ _ _ _ hinit
      rw [← ht]; exact hall τ hτ
    · exact (hb2 τ hτ).2
  -- and so is the last one
  have hfar : s1.rest ≠ [] → eps < dirSign dt * (last - p.curTime s1.q) := by
    intro hne
    have h1 : last = s1.rest.getLast hne := by
      rw [← hlast]
      refine getLastD_of_suffix ?_ hne
      rw [← h.times_eq]; exact List.suffix_append _ _
    rw [h1]
    exact (beyond_iff _ _ _ _).mp (hall _ (List.getLast_mem hne))
  have hnoobs : ∀ (x' : S) (t' d' : K), ¬ Beyond eps dt (t' + d') last →
      StepsWithin eps dt last [Event.step x' t' d'] := by
    intro x' t' d' hb e he x'' t'' d'' heq
    subst heq
    simp at he
    obtain ⟨rfl, rfl, rfl⟩ := he
    exact hb
  have hinitev : ∀ (x' : S) (t' d' : K), StepsWithin eps dt last [Event.init x' t' d'] := by
    intro x' t' d' e he x'' t'' d'' heq
    subst heq
    simp at he
  split
  · rename_i hc
    have hnb : ¬ Beyond eps dt (p.curTime s1.q + p.curDt s1.q) last := by
      rw [not_beyond_iff, dirSign_of_sameDir h.dir]; exact (exact_lessEq _ _ _ _).mp hc
    apply Res.Sat.bind
    apply logCall_sat
    · intro q' hq'
      refine ⟨⟨new ++ [.step (p.curState s1.q) (p.curTime s1.q) (p.curDt s1.q)], obs, ?_, ?_, h.times_eq,
        h.state, fun b hb => (h.observed b hb).append _, h.within.append (hnoobs _ _ _ hnb), ?_,
        h.dir.trans (hp.dir _ _ hq' h.dir.ne_zero),
        .inr ⟨by simp, s1.q, ⟨new, [], by simp, by simp, hq'⟩, fun τ hτ => ⟨hall τ hτ, hall0 τ hτ⟩⟩⟩, hsuf, by simp only; omega, ?_⟩
      · rw [h.log]; simp [loggedDense]
      · rw [observations_append, h.observations]; simp [Log.observations]
      · rw [stepCount_append, h.count]; simp [Log.stepCount]
      · by_cases hne : s1.rest = []
        · exact .inl hne
        · right
          have := hfar hne
          rw [hq] at this
          exact ⟨by simp only [hn], this, s1.q, hq', by rw [hq], h.dir, .inl (by rw [hq])⟩
    · intro e _
      exact h.toErr _ (hnoobs _ _ _ hnb) (by simp [Log.observations])
  · split
    · rename_i hc hne
      have hne' : s1.rest ≠ [] := by
        intro h0; rw [h0] at hne; simp at hne
      apply Res.Sat.bind
      apply logCall_sat
      · intro q1 hq1
        have e1 := hp.init_state _ _ _ _ _ hq1
        have e2 := hp.init_time _ _ _ _ _ hq1
        have e3 := hp.init_dt _ _ _ _ _ hq1
        simp only [loggedDense] at e1 e2 e3
        change p.curDt q1 = last - p.curTime s1.q at e3
        have hd1 : SameDir dt (p.curDt q1) := by
          rw [e3, sameDir_iff hdt]; linarith [hfar hne']
        have hnb : ¬ Beyond eps dt (p.curTime q1 + p.curDt q1) last := by
          rw [not_beyond_iff, e2, e3]
          have : dirSign dt * (p.curTime s1.q + (last - p.curTime s1.q) - last) = 0 := by ring
          rw [this]; exact heps
        apply Res.Sat.bind
        apply logCall_sat
        · intro q' hq'
          refine ⟨⟨new ++ [.init (p.curState s1.q) (p.curTime s1.q) (last - p.curTime s1.q),
            .step (p.curState q1) (p.curTime q1) (p.curDt q1)], obs, ?_, ?_, h.times_eq,
            h.state, fun b hb => (h.observed b hb).append _, h.within.append ?_, ?_,
            hd1.trans (hp.dir _ _ hq' hd1.ne_zero),
            .inr ⟨by simp, q1, ⟨new ++ [.init (p.curState s1.q) (p.curTime s1.q) (last - p.curTime s1.q)], [],
              by simp, by simp, hq'⟩, fun τ hτ => ⟨by rw [e2]; exact hall τ hτ, hall0 τ hτ⟩⟩⟩, hsuf, by simp only; omega, .inr ?_⟩
          · rw [h.log]; simp [loggedDense, TimeArith.exact]
          · rw [observations_append, h.observations]; simp [Log.observations]
          · exact StepsWithin.append (w := [_]) (l := [_]) (hinitev _ _ _) (hnoobs _ _ _ hnb)
          · rw [stepCount_append, h.count]; simp [Log.stepCount]
          · have := hfar hne'
            rw [hq] at this
            exact ⟨by simp only [hn], this, q1, hq', by rw [e2, hq], hd1, .inr (by rw [e3, hq])⟩
        · intro e _
          rw [List.append_assoc]
          exact h.toErr _ (StepsWithin.append (w := [_]) (l := [_]) (hinitev _ _ _) (hnoobs _ _ _ hnb))
            (by simp [Log.observations])
      · intro e _
        exact h.toErr _ (hinitev _ _ _) (by simp [Log.observations])
    · rename_i hc hne
      have hne' : s1.rest = [] := by
        cases hr : s1.rest with
        | nil => rfl
        | cons a l => rw [hr] at hne; simp at hne
      exact ⟨⟨new, obs, h⟩, hsuf, hn.ge, .inl hne'⟩

/-- The state of affairs before the outer loop. -/
theorem denseTimes_start {p : PureDense Q S K} (hp : DenseContract p) {eps dt : K}
    (hdt : dt ≠ 0) {q q0 : Q} {x : S} {t0 : K} {times : List K} (w : Log S K)
    (hq0 : p.init q x t0 dt = .ok q0) :
    DTInv p eps dt q x t0 (times.getLastD t0) times w ⟨q0, x, times, 0⟩
      (w ++ [.init x t0 dt] ++ [.obs x t0]) [.init x t0 dt, .obs x t0] [] where
  log := by simp
  observations := by simp [Log.observations]
  times_eq := by simp
  state := by simp
  observed := by simp
  within := by
    intro e he x'' t'' d'' heq
    subst heq
    simp at he
  count := by simp [Log.stepCount]
  dir := by
    have := hp.init_dt _ _ _ _ _ hq0
    simp only [this]; exact SameDir.refl hdt
  latest := .inl ⟨rfl, hq0⟩

/-- Everything `integrate_times` guarantees. -/
theorem denseTimes_sat (eps : K) (heps : 0 ≤ eps) (p : PureDense Q S K)
    (hp : DenseContract p) (q : Q) (x : S) (t0 : K) (times : List K) (dt : K) (hdt : dt ≠ 0)
    (hmono : MonotoneTimes dt (t0 :: times)) (w : Log S K) :
    (integrateTimesDense (TimeArith.exact K eps) (loggedDense p) record q x (t0 :: times) dt
    w).Sat (fun r w' => ∃ s new obs, DTInv p eps dt q x t0 (times.getLastD t0) times w s w' new obs ∧
      s.rest = [] ∧ r = (s.x, s.count))
    (fun _ w' => DTErr p eps dt q x t0 (times.getLastD t0) times w w') True := by
  unfold integrateTimesDense
  simp only
  apply Res.Sat.bind
  apply logCall_sat
  · intro q0 hq0
    rw [record_bind]
    apply Res.Sat.bind
    refine (whileM_sat (fun s w' => ∃ new obs,
        DTInv p eps dt q x t0 (times.getLastD t0) times w s w' new obs)
      (E := fun _ w' => DTErr p eps dt q x t0 (times.getLastD t0) times w w') ?_ ?_).mono ?_
      (fun _ _ h => h) id
    · intro s w2 hI _
      exact (denseTimesBody_sat hp heps hdt hmono hI).mono (fun _ _ h => h.1) (fun _ _ h => h)
        False.elim
    · exact ⟨_, _, denseTimes_start hp hdt w hq0⟩
    · rintro s w2 ⟨⟨new, obs, h⟩, hc⟩
      exact ⟨s, new, obs, h, by simpa using hc, rfl⟩
  · intro e _
    refine ⟨[.init x t0 dt], [], rfl, .inl ⟨by simp [Log.observations], rfl⟩, by simp, by simp, ?_⟩
    intro e he x'' t'' d'' heq
    subst heq
    simp at he

/-- **C09**.  For monotone times, whenever `integrate_times` with a dense output stepper returns: the
observer has been called first with the initial state, then exactly once at each further requested time,
in order and with exactly that time (`obs`); each of these states was obtained by interpolation inside the
latest step (for times within `eps` of the start: from the freshly initialised stepper); no step was
attempted whose proposed end lies beyond the last requested time; the number of steps is returned and the
state variable holds the last observed state. -/
theorem integrate_times_dense_spec (eps : K) (heps : 0 ≤ eps) (p : PureDense Q S K)
    (hp : DenseContract p) (q : Q) (x : S) (t0 : K) (times : List K) (dt : K) (hdt : dt ≠ 0)
    (hmono : MonotoneTimes dt (t0 :: times)) (w w' : Log S K) (r : S × ℕ)
    (hrun : integrateTimesDense (TimeArith.exact K eps) (loggedDense p) record q x (t0 :: times) dt w =
      .ok r w') :
    ∃ (new : Log S K) (obs : List (S × K)), w' = w ++ new ∧ new.observations = (x, t0) :: obs ∧
      obs.map Prod.snd = times ∧ r.1 = (obs.getLast?.map Prod.fst).getD x ∧ new.stepCount = r.2 ∧
      (∀ b ∈ obs, Beyond eps dt b.2 t0 → Interpolated p eps dt new b.1 b.2) ∧
      (∀ b ∈ obs, ¬ Beyond eps dt b.2 t0 →
        ∃ q0, p.init q x t0 dt = .ok q0 ∧ p.calcState q0 b.2 = .ok b.1) ∧
      (∀ x' t' d', Event.step x' t' d' ∈ new → ¬ Beyond eps dt (t' + d') (times.getLastD t0)) := by
  obtain ⟨s, new, obs, h, hrest, hr⟩ := (denseTimes_sat eps heps p hp q x t0 times dt hdt hmono w).of_ok hrun
  refine ⟨new, obs, h.log, h.observations, ?_, ?_, ?_, fun b hb => (h.observed b hb).1,
    fun b hb => (h.observed b hb).2, fun x' t' d' he => h.within _ he _ _ _ rfl⟩
  · have := h.times_eq; rw [hrest, List.append_nil] at this; exact this
  · rw [hr]; exact h.state
  · rw [hr]; exact h.count

/-- **C09** (exception): the observer has seen an initial part of the requested times, obtained in the same
way. -/
theorem integrate_times_dense_exception (eps : K) (heps : 0 ≤ eps) (p : PureDense Q S K)
    (hp : DenseContract p) (q : Q) (x : S) (t0 : K) (times : List K) (dt : K) (hdt : dt ≠ 0)
    (hmono : MonotoneTimes dt (t0 :: times)) (w w' : Log S K) (e : Err)
    (hrun : integrateTimesDense (TimeArith.exact K eps) (loggedDense p) record q x (t0 :: times) dt w =
      .err e w') :
    ∃ (new : Log S K) (obs : List (S × K)), w' = w ++ new ∧
      (new.observations = [] ∧ obs = [] ∨ new.observations = (x, t0) :: obs) ∧
      obs.map Prod.snd <+: times ∧
      (∀ b ∈ obs, Beyond eps dt b.2 t0 → Interpolated p eps dt new b.1 b.2) ∧
      (∀ x' t' d', Event.step x' t' d' ∈ new → ¬ Beyond eps dt (t' + d') (times.getLastD t0)) := by
  obtain ⟨new, obs, h1, h2, h3, h4, h5⟩ :=
    (denseTimes_sat eps heps p hp q x t0 times dt hdt hmono w).of_err hrun
  exact ⟨new, obs, h1, h2, h3, fun b hb => (h4 b hb).1, fun x' t' d' he => h5 _ he _ _ _ rfl⟩

/-- **C09** (termination).  Let `g > 0`.  If every `do_step` advances by the full current step size or at
least by `g`, and the next step size is not smaller than `g` or the step just made, then `integrate_times`
returns or throws. -/
theorem integrate_times_dense_terminates [Archimedean K] (eps : K) (heps : 0 ≤ eps)
    (p : PureDense Q S K) (hp : DenseContract p) (g : K) (hg : 0 < g)
    (hadv : ∀ q q', p.doStep q = .ok q' → p.curDt q ≠ 0 →
      p.curTime q' = p.curTime q + p.curDt q ∨ g ≤ |p.curTime q' - p.curTime q|)
    (hnext : ∀ q q', p.doStep q = .ok q' → p.curDt q ≠ 0 →
      min g |p.curTime q' - p.curTime q| ≤ |p.curDt q'|)
    (q : Q) (x : S) (t0 : K) (times : List K) (dt : K) (hdt : g ≤ |dt|)
    (hmono : MonotoneTimes dt (t0 :: times)) (w : Log S K) :
    (∃ r w', integrateTimesDense (TimeArith.exact K eps) (loggedDense p) record q x (t0 :: times) dt w =
      .ok r w') ∨
    (∃ e w', integrateTimesDense (TimeArith.exact K eps) (loggedDense p) record q x (t0 :: times) dt w =
      .err e w') := by
  have hdt0 : dt ≠ 0 := by
    intro h; rw [h, abs_zero] at hdt; exact absurd hdt (not_le.mpr hg)
  obtain ⟨N, hN⟩ := Archimedean.arch (dirSign dt * (times.getLastD t0 - t0)) hg
  rw [nsmul_eq_mul] at hN
  have key : (integrateTimesDense (TimeArith.exact K eps) (loggedDense p) record q x (t0 :: times) dt
      w).Sat (fun _ _ => True) (fun _ _ => True) False := by
    unfold integrateTimesDense
    simp only
    apply Res.Sat.bind
    apply logCall_sat
    · intro q0 hq0
      rw [record_bind]
      apply Res.Sat.bind
      refine (whileM_sat_total (W := Log S K) (fun s w' => (∃ new obs,
          DTInv p eps dt q x t0 (times.getLastD t0) times w s w' new obs) ∧
          (s.rest = [] ∨ (g ≤ |p.curDt s.q| ∧ (s.count : K) * g ≤ dirSign dt * (p.curTime s.q - t0)) ∨
            p.curTime s.q = times.getLastD t0))
        (E := fun _ _ => True) (D := False) (μ := fun s _ => s.rest.length + (N - s.count)) ?_ ?_).mono
        (fun _ _ _ => trivial)
        (fun _ _ h => h) id
      · rintro s w2 ⟨hI, hprog⟩ hc
        have hne : s.rest ≠ [] := by intro h; rw [h] at hc; simp at hc
        -- the step counter never decreases
        obtain ⟨new, obs, hI0⟩ := hI
        refine (denseTimesBody_sat hp heps hdt0 hmono ⟨new, obs, hI0⟩).mono
          ?_ (fun _ _ _ => trivial) id
        rintro s' w3 ⟨hI', hsuf, hcount, hor⟩
        refine ⟨⟨hI', ?_⟩, ?_⟩
        · rcases hor with h | ⟨hcnt, hfar, q1, hq1, ht1, hd1, hdd⟩
          · exact .inl h
          right
          have hP : g ≤ |p.curDt s.q| ∧ (s.count : K) * g ≤ dirSign dt * (p.curTime s.q - t0) := by
            rcases hprog with h | h | h
            · exact absurd h hne
            · exact h
            · rw [h] at hfar; simp at hfar; linarith
          obtain ⟨a1, -⟩ := hp.advance _ _ hq1 hd1.ne_zero
          have e2 := dirSign_mul_self (p.curTime s'.q - p.curTime q1)
          rw [← dirSign_of_sameDir a1, ← dirSign_of_sameDir hd1] at e2
          have hnx := hnext _ _ hq1 hd1.ne_zero
          have hcases : g ≤ |p.curTime s'.q - p.curTime q1| ∨ p.curTime s'.q = times.getLastD t0 := by
            rcases hadv _ _ hq1 hd1.ne_zero with h | h
            · rcases hdd with h2 | h2
              · left; rw [h, add_sub_cancel_left, h2]; exact hP.1
              · right; rw [h, h2, ht1]; ring
            · exact .inl h
          rcases hcases with h | h
          · left
            rw [min_eq_left h] at hnx
            refine ⟨hnx, ?_⟩
            have : dirSign dt * (p.curTime s'.q - t0) = dirSign dt * (p.curTime s.q - t0) +
              |p.curTime s'.q - p.curTime q1| := by rw [← e2, ht1]; ring
            rw [this, hcnt]; push_cast; linarith [hP.2]
          · exact .inr h
        · rcases hor with h | ⟨hcnt, hfar, -⟩
          · rw [h]
            have : 0 < s.rest.length := List.length_pos_iff.mpr hne
            simp only [List.length_nil]; omega
          · have hP : (s.count : K) * g ≤ dirSign dt * (p.curTime s.q - t0) := by
              rcases hprog with h | h | h
              · exact absurd h hne
              · exact h.2
              · rw [h] at hfar; simp at hfar; linarith
            have hlt : s.count < N := by
              by_contra hge
              have h1 : (N : K) ≤ s.count := by exact_mod_cast Nat.not_lt.mp hge
              have h2 : (N : K) * g ≤ s.count * g := mul_le_mul_of_nonneg_right h1 hg.le
              have h3 : dirSign dt * (p.curTime s.q - t0) = dirSign dt * (times.getLastD t0 - t0) -
                dirSign dt * (times.getLastD t0 - p.curTime s.q) := by ring
              linarith
            have := hsuf.length_le
            omega
      · have e2 := hp.init_time _ _ _ _ _ hq0
        have e3 := hp.init_dt _ _ _ _ _ hq0
        refine ⟨⟨_, _, denseTimes_start hp hdt0 w hq0⟩, .inr (.inl ⟨by rw [e3]; exact hdt, ?_⟩)⟩
        simp [e2]
    · intro _ _; trivial
  revert key
  cases integrateTimesDense (TimeArith.exact K eps) (loggedDense p) record q x (t0 :: times) dt w with
  | ok r w' => intro _; exact .inl ⟨r, w', rfl⟩
  | err e w' => intro _; exact .inr ⟨e, w', rfl⟩
  | ub => intro h; exact h.elim
  | div => intro h; exact h.elim

/-- Non-vacuity of C09: irregular forward times and the stepper `rampDense 2` (contract
`rampDense_contract`; the termination hypotheses for it are shown in `DenseAdaptive`). -/
example : MonotoneTimes (1/2 : ℚ) (0 :: [1/3, 1/3, 2, 7]) ∧ DenseContract (rampDense (2:ℚ)) :=
  ⟨by unfold MonotoneTimes; norm_num, rampDense_contract 2 (by norm_num)⟩

/-- **C09** (empty range): returns 0, no call is made. -/
theorem integrate_times_dense_empty {W T : Type} (A : TimeArith T) (st : DenseStepper Q W S T)
    (obs : Observer W S T) (q : Q) (x : S) (dt : T) (w : W) :
    integrateTimesDense A st obs q x [] dt w = .ok (x, 0) w := rfl

end
/-- The exceptional case of C09 (a requested time within `eps` of the first one): when the start time is
requested twice, `calc_state` is called on a stepper that has never made a step. -/
theorem integrate_times_dense_repeated_start :
    ∃ r w', integrateTimesDense (TimeArith.exact ℚ 0) (loggedDense (rampDense 1)) record (0, 0, 0) 5 [0, 0] 1
      [] = .ok r w' ∧ w' = [.init 5 0 1, .obs 5 0, .calc 0, .obs 5 0] := by
  apply exists_eval
  · unfold integrateTimesDense denseTimesBody denseTimesObserve
    run_eval
  · norm_num [rampDense, loggedDense, TimeArith.exact]

end Verif
