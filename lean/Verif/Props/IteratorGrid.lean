import Verif.Props.DenseTimes
import Verif.Props.IteratorTimes

/-!
# C54: time ranges over a grid with a dense output stepper

`make_const_step_time_range`, `make_n_step_time_range` and `make_times_time_range` with a dense output
stepper visit exactly the grid times, and the state visited at a time is the interpolated state of the step
that contains it.
-/

namespace Verif
set_option linter.unusedSectionVars false
variable {Q S : Type} {K : Type} [Field K] [LinearOrder K] [IsStrictOrderedRing K]

/-- The part of the invariant common to all grid iterators, while the stepper is on its way to `τ`. -/
structure GInv (p : PureDense Q S K) (eps dt : K) (q : Q) (x : S) (t0 : K) (lim : Option K) (w : Log S K)
    (τ : K) (q1 : Q) (w' new : Log S K) (obs : List (S × K)) : Prop where
  log : w' = w ++ new
  observations : new.observations = obs
  observed : ∀ b ∈ obs.tail, DenseObserved p eps dt q x t0 new b
  within : ∀ l ∈ lim, StepsWithin eps dt l new
  dir : SameDir dt (p.curDt q1)
  latest : p.init q x t0 dt = .ok q1 ∨ ∃ q2, LatestStep p new q2 q1 ∧
    Beyond eps dt τ (p.curTime q2) ∧ Beyond eps dt τ t0

theorem GInv.far {p : PureDense Q S K} (hp : DenseContract p) {eps dt : K} {q : Q} {x : S} {t0 : K}
    {lim : Option K} {w : Log S K} {τ : K} {q1 : Q} {w' new : Log S K} {obs : List (S × K)}
    (h : GInv p eps dt q x t0 lim w τ q1 w' new obs) (hb : Beyond eps dt τ (p.curTime q1)) :
    Beyond eps dt τ t0 := by
  rcases h.latest with h1 | ⟨_, _, _, h1⟩
  · rw [hp.init_time _ _ _ _ _ h1] at hb; exact hb
  · exact h1

/-- passing on to a later grid time -/
theorem GInv.next {p : PureDense Q S K} {eps dt : K} {q : Q} {x : S} {t0 : K}
    {lim : Option K} {w : Log S K} {τ τ' : K} {q1 : Q} {w' new : Log S K} {obs : List (S × K)}
    (h : GInv p eps dt q x t0 lim w τ q1 w' new obs) (hle : 0 ≤ dirSign dt * (τ' - τ)) :
    GInv p eps dt q x t0 lim w τ' q1 w' new obs where
  log := h.log
  observations := h.observations
  observed := h.observed
  within := h.within
  dir := h.dir
  latest := by
    rcases h.latest with h1 | ⟨q2, h1, h2, h3⟩
    · exact .inl h1
    · exact .inr ⟨q2, h1, beyond_of_head h2 hle, beyond_of_head h3 hle⟩

/-- a step from `q1'`, where `q1'` is `q1` or `q1` re-initialised with another step size -/
theorem GInv.step {p : PureDense Q S K} (hp : DenseContract p) {eps dt : K} {q : Q} {x : S} {t0 : K}
    {lim : Option K} {w : Log S K} {τ : K} {q1 q1' q2 : Q} {w' new l : Log S K} {obs : List (S × K)}
    (h : GInv p eps dt q x t0 lim w τ q1 w' new obs) (hb : Beyond eps dt τ (p.curTime q1))
    (ht : p.curTime q1' = p.curTime q1) (hd : SameDir dt (p.curDt q1')) (hstep : p.doStep q1' = .ok q2)
    (hl : ∀ e ∈ l, ∃ a b c, e = .init a b c)
    (hw : ∀ last ∈ lim, ¬ Beyond eps dt (p.curTime q1' + p.curDt q1') last) :
    GInv p eps dt q x t0 lim w τ q2 (w' ++ l ++ [.step (p.curState q1') (p.curTime q1') (p.curDt q1')])
      (new ++ l ++ [.step (p.curState q1') (p.curTime q1') (p.curDt q1')]) obs where
  log := by rw [h.log]; simp
  observations := by
    have : Log.observations l = [] := by
      clear hw
      induction l with
      | nil => rfl
      | cons e l ih =>
        obtain ⟨a, b, c, rfl⟩ := hl e (by simp)
        have := ih (fun e he => hl e (by simp [he]))
        rw [show (Event.init a b c :: l : Log S K) = [Event.init a b c] ++ l from rfl, observations_append, this]
        rfl
    rw [observations_append, observations_append, h.observations, this]; simp [Log.observations]
  observed := fun b hb => ((h.observed b hb).append _).append _
  within := by
    intro last hlast
    refine ((h.within last hlast).append ?_).append ?_
    · intro e he x' t' d' heq
      obtain ⟨a, b, c, rfl⟩ := hl e he
      cases heq
    · intro e he x' t' d' heq
      simp only [List.mem_singleton] at he
      subst he
      injection heq with h1 h2 h3
      rw [← h2, ← h3]
      exact hw last hlast
  dir := hd.trans (hp.dir _ _ hstep hd.ne_zero)
  latest := .inr ⟨q1', ⟨new ++ l, [], by simp, by simp, hstep⟩, by rw [ht]; exact hb, h.far hp hb⟩

/-- Where the iteration stands when `!= end` is evaluated: `obs` are the visited pairs, the next pair is
`(i.x, i.t)`. -/
structure GHead (p : PureDense Q S K) (eps dt : K) (q : Q) (x : S) (t0 : K) (lim : Option K) (w : Log S K)
    (i : DenseGridIter Q S K) (w' new : Log S K) (obs : List (S × K)) : Prop
    extends GInv p eps dt q x t0 lim w i.t i.q w' new obs where
  first : obs.head? = some (x, t0) ∨ (obs = [] ∧ i.x = x ∧ i.t = t0)
  pending : obs ≠ [] → p.calcState i.q i.t = .ok i.x ∧ ¬ Beyond eps dt i.t (p.curTime i.q) ∧
    ∃ pre, new = pre ++ [.calc i.t]

/-- visiting the pair of the iterator -/
theorem GHead.visit {p : PureDense Q S K} (hp : DenseContract p) {eps dt : K} {q : Q} {x : S} {t0 : K}
    {lim : Option K} {w : Log S K} {i : DenseGridIter Q S K} {w' new : Log S K} {obs : List (S × K)}
    (h : GHead p eps dt q x t0 lim w i w' new obs) :
    GInv p eps dt q x t0 lim w i.t i.q (w' ++ [.obs i.x i.t]) (new ++ [.obs i.x i.t])
      (obs ++ [(i.x, i.t)]) ∧ (obs ++ [(i.x, i.t)]).head? = some (x, t0) := by
  have hpas : ∀ e ∈ [(Event.obs i.x i.t : Event S K)], e.isPassive = true := by simp [Event.isPassive]
  refine ⟨⟨by rw [h.log]; simp, by rw [observations_append, h.observations]; simp [Log.observations], ?_,
    ?_, h.dir, ?_⟩, ?_⟩
  · intro b hb
    by_cases ho : obs = []
    · rw [ho] at hb; simp at hb
    · rw [List.tail_append_of_ne_nil ho] at hb
      rcases List.mem_append.mp hb with hb | hb
      · exact (h.observed b hb).append _
      · simp only [List.mem_singleton] at hb
        subst hb
        obtain ⟨p1, p2, pre, p3⟩ := h.pending ho
        rcases h.latest with h1 | ⟨q2, ⟨pre', mid, g1, g2, g3⟩, h2, h3⟩
        · have ht := hp.init_time _ _ _ _ _ h1
          rw [ht] at p2
          exact ⟨fun hb => absurd hb p2, fun _ => ⟨_, h1, p1⟩⟩
        · refine ⟨fun _ => ?_, fun hn => absurd h3 hn⟩
          rcases List.eq_nil_or_concat mid with hm | ⟨mid', e, hm⟩
          · rw [hm, List.append_nil, p3] at g1
            have := congrArg List.getLast? g1
            simp at this
          · rw [List.concat_eq_append] at hm
            rw [hm, p3, ← List.append_assoc] at g1
            have e1 := List.append_inj' g1 rfl
            refine ⟨q2, i.q, pre', mid', [], ?_, ?_, g3, p1, h2, p2⟩
            · rw [p3, e1.1]; simp
            · intro e' he'
              exact g2 e' (by rw [hm]; simp [he'])
  · intro l hl
    refine (h.within l hl).append ?_
    intro e he x' t' d' heq
    subst heq
    simp at he
  · rcases h.latest with h1 | ⟨q2, h1, h2, h3⟩
    · exact .inl h1
    · exact .inr ⟨q2, h1.append hpas, h2, h3⟩
  · rcases h.first with h1 | ⟨h1, h2, h3⟩
    · rw [List.head?_append, h1]; rfl
    · rw [h1, h2, h3]; rfl

/-- interpolating at the time reached -/
theorem GInv.calc {p : PureDense Q S K} {eps dt : K} {q : Q} {x : S} {t0 : K}
    {lim : Option K} {w : Log S K} {τ : K} {q1 : Q} {w' new : Log S K} {obs : List (S × K)}
    (h : GInv p eps dt q x t0 lim w τ q1 w' new obs) (hne : obs.head? = some (x, t0))
    (hn : ¬ Beyond eps dt τ (p.curTime q1)) {i : DenseGridIter Q S K} (ht : i.t = τ) (hq : i.q = q1)
    (hx : p.calcState q1 τ = .ok i.x) :
    GHead p eps dt q x t0 lim w i (w' ++ [.calc τ]) (new ++ [.calc τ]) obs := by
  subst ht hq
  refine ⟨⟨by rw [h.log]; simp, by rw [observations_append, h.observations]; simp [Log.observations],
    fun b hb => (h.observed b hb).append _, ?_, h.dir, ?_⟩, .inl hne, fun _ => ⟨hx, hn, new, rfl⟩⟩
  · intro l hl
    refine (h.within l hl).append ?_
    intro e he x' t' d' heq
    subst heq
    simp at he
  · rcases h.latest with h1 | ⟨q2, h1, h2, h3⟩
    · exact .inl h1
    · exact .inr ⟨q2, h1.append (by simp [Event.isPassive]), h2, h3⟩

/-- The loop `while( current_time < τ ) do_step`. -/
theorem advanceDense_sat {p : PureDense Q S K} (hp : DenseContract p) {eps dt : K} {q : Q} {x : S} {t0 : K}
    {w : Log S K} {τ : K} {q1 : Q} {w' new : Log S K} {obs : List (S × K)}
    (h : GInv p eps dt q x t0 none w τ q1 w' new obs) :
    (advanceDense (TimeArith.exact K eps) (loggedDense p) τ q1 w').Sat
      (fun q2 w2 => (∃ new', GInv p eps dt q x t0 none w τ q2 w2 new' obs) ∧
        ¬ Beyond eps dt τ (p.curTime q2))
      (fun _ _ => True) True := by
  unfold advanceDense
  refine (whileM_sat (W := Log S K) (fun q2 w2 => ∃ new', GInv p eps dt q x t0 none w τ q2 w2 new' obs)
    (E := fun _ _ => True) ?_ ⟨new, h⟩).mono ?_ (fun _ _ h => h) id
  · rintro q2 w2 ⟨new', h2⟩ hc
    have hb : Beyond eps dt τ (p.curTime q2) := by
      rw [beyond_iff, dirSign_of_sameDir h2.dir]
      exact (exact_less _ _ _ _).mp hc
    apply logCall_sat
    · intro q3 hq3
      have := h2.step hp (l := []) hb rfl h2.dir hq3 (by simp) (by simp)
      simp only [List.append_nil] at this
      exact ⟨_, this⟩
    · intro _ _; trivial
  · rintro q2 w2 ⟨⟨new', h2⟩, hc⟩
    refine ⟨⟨new', h2⟩, ?_⟩
    rw [not_beyond_iff, dirSign_of_sameDir h2.dir]
    exact (exact_less_false _ _ _ _).mp hc

/-- The grid `t0, t0 + dt, …, t0 + (n-1) dt`. -/
def gridTimes (t0 dt : K) (n : ℕ) : List K := (List.range n).map fun k : ℕ => t0 + (k : K) * dt

theorem gridTimes_succ (t0 dt : K) (n : ℕ) :
    gridTimes t0 dt (n + 1) = gridTimes t0 dt n ++ [t0 + (n : K) * dt] := by
  simp [gridTimes, List.range_succ]

theorem grid_le (t0 dt : K) (n : ℕ) :
    0 ≤ dirSign dt * (t0 + ((n + 1 : ℕ) : K) * dt - (t0 + (n : K) * dt)) := by
  have : t0 + ((n + 1 : ℕ) : K) * dt - (t0 + (n : K) * dt) = dt := by push_cast; ring
  rw [this, dirSign_mul_self]
  exact abs_nonneg _

/-- The loop over a grid iterator with a counter; `more` is the condition under which `++` proceeds. -/
theorem gridRange_sat {p : PureDense Q S K} (hp : DenseContract p) {eps dt : K}
    {q : Q} {x : S} {t0 : K} {w : Log S K} {it : OdeIterator (DenseGridIter Q S K) (Log S K) S K}
    {more : ℕ → Bool}
    (hend : ∀ i, it.atEnd i = i.atEnd) (hderef : ∀ i, it.deref i = (i.x, i.t))
    (hinc : ∀ i : DenseGridIter Q S K, i.t = t0 + (i.step : K) * dt → it.increment i =
      if more i.step then do
        let t := t0 + ((i.step + 1 : ℕ) : K) * dt
        let q ← advanceDense (TimeArith.exact K eps) (loggedDense p) t i.q
        let x ← (loggedDense p).calcState q t
        pure ({ i with q := q, x := x, t := t, step := i.step + 1 } : DenseGridIter Q S K)
      else pure { i with atEnd := true })
    {q0 : Q} (hdt : dt ≠ 0) (hinit : p.init q x t0 dt = .ok q0) :
    (it.forEach record ⟨q0, x, t0, 0, [], false⟩ (w ++ [.init x t0 dt])).Sat
      (fun i w' => ∃ new obs, w' = w ++ new ∧ new.observations = (x, t0) :: obs ∧
        ((x, t0) :: obs).map Prod.snd = gridTimes t0 dt (i.step + 1) ∧
        (∀ b ∈ obs, DenseObserved p eps dt q x t0 new b) ∧
        more i.step = false ∧ ∀ k < i.step, more k = true)
      (fun _ _ => True) True := by
  unfold OdeIterator.forEach
  refine (whileM_sat (W := Log S K) (fun i w' => (∀ k < i.step, more k = true) ∧
      i.t = t0 + (i.step : K) * dt ∧ ∃ new obs,
      (i.atEnd = false ∧ GHead p eps dt q x t0 none w i w' new obs ∧
        obs.map Prod.snd = gridTimes t0 dt i.step) ∨
      (i.atEnd = true ∧ GInv p eps dt q x t0 none w i.t i.q w' new obs ∧ obs.head? = some (x, t0) ∧
        obs.map Prod.snd = gridTimes t0 dt (i.step + 1) ∧ more i.step = false))
    (E := fun _ _ => True) ?_ ?_).mono ?_ (fun _ _ h => h) id
  · rintro i w2 ⟨hk, ht, new, obs, h⟩ hc
    rw [hend] at hc
    rcases h with ⟨h0, h, hg⟩ | ⟨h0, -⟩
    swap
    · rw [h0] at hc; simp at hc
    rw [hderef, record_bind, hinc i ht]
    obtain ⟨hv, hh⟩ := h.visit hp
    have hg' : (obs ++ [(i.x, i.t)]).map Prod.snd = gridTimes t0 dt (i.step + 1) := by
      rw [gridTimes_succ, ← hg, ← ht]; simp
    by_cases hm : more i.step = true
    · rw [if_pos hm]
      have hn := hv.next (τ' := t0 + ((i.step + 1 : ℕ) : K) * dt) (by rw [ht]; exact grid_le t0 dt i.step)
      apply Res.Sat.bind
      refine (advanceDense_sat hp hn).mono ?_ (fun _ _ h => h) id
      rintro q3 w3 ⟨⟨new3, h3⟩, hb3⟩
      apply Res.Sat.bind
      apply logCall_sat
      · intro y hy
        refine ⟨?_, rfl, new3 ++ [.calc (t0 + ((i.step + 1 : ℕ) : K) * dt)], _, .inl ⟨h0, h3.calc hh hb3
          (i := { i with q := q3, x := y, t := t0 + ((i.step + 1 : ℕ) : K) * dt, step := i.step + 1 })
          rfl rfl hy, hg'⟩⟩
        intro k hk'
        rcases Nat.lt_succ_iff_lt_or_eq.mp hk' with h | h
        · exact hk k h
        · rw [h]; exact hm
      · intro _ _; trivial
    · rw [if_neg hm]
      exact ⟨hk, ht, _, _, .inr ⟨rfl, hv, hh, hg', by simpa using hm⟩⟩
  · refine ⟨by simp, by simp, [.init x t0 dt], [], .inl ⟨rfl, ⟨⟨rfl, rfl, by simp, by simp, ?_, .inl hinit⟩,
      .inr ⟨rfl, rfl, rfl⟩, by simp⟩, rfl⟩⟩
    show SameDir dt (p.curDt q0)
    rw [hp.init_dt _ _ _ _ _ hinit]
    exact SameDir.refl hdt
  · rintro i w2 ⟨⟨hk, ht, new, obs, h⟩, hc⟩
    rw [hend] at hc
    rcases h with ⟨h0, -⟩ | ⟨-, h, hh, hg, hm⟩
    · rw [h0] at hc; simp at hc
    cases obs with
    | nil => simp at hh
    | cons b obs =>
      simp only [List.head?_cons, Option.some.injEq] at hh
      subst hh
      exact ⟨new, obs, h.log, h.observations, hg, h.observed, hm, hk⟩

/-- **C54** (`make_n_step_time_range`).  Going through the range of `n` steps with a dense output stepper
visits first the initial state, then exactly the times `t0 + k dt`, `k = 1 … n`, in order; the state visited
at a time was obtained by interpolation inside the latest step, which contains that time (for times within
`eps` of the start: from the freshly initialised stepper). -/
theorem n_step_range_dense_spec (eps : K) (p : PureDense Q S K) (hp : DenseContract p) (q : Q) (x : S)
    (t0 dt : K) (hdt : dt ≠ 0) (n : ℕ) (w w' : Log S K) (i : DenseGridIter Q S K)
    (hrun : (nStepDenseIteratorBegin (loggedDense p) q x t0 dt >>=
      (nStepDenseIterator (TimeArith.exact K eps) (loggedDense p) t0 dt n).forEach record) w = .ok i w') :
    ∃ (new : Log S K) (obs : List (S × K)), w' = w ++ new ∧ new.observations = (x, t0) :: obs ∧
      ((x, t0) :: obs).map Prod.snd = (List.range (n + 1)).map (fun k : ℕ => t0 + (k : K) * dt) ∧
      (∀ b ∈ obs, Beyond eps dt b.2 t0 → Interpolated p eps dt new b.1 b.2) ∧
      (∀ b ∈ obs, ¬ Beyond eps dt b.2 t0 →
        ∃ q0, p.init q x t0 dt = .ok q0 ∧ p.calcState q0 b.2 = .ok b.1) := by
  have key : ((nStepDenseIteratorBegin (loggedDense p) q x t0 dt >>=
      (nStepDenseIterator (TimeArith.exact K eps) (loggedDense p) t0 dt n).forEach record) w).Sat
      (fun i w' => ∃ new obs, w' = w ++ new ∧ new.observations = (x, t0) :: obs ∧
        ((x, t0) :: obs).map Prod.snd = gridTimes t0 dt (i.step + 1) ∧
        (∀ b ∈ obs, DenseObserved p eps dt q x t0 new b) ∧
        decide (i.step < n) = false ∧ ∀ k < i.step, decide (k < n) = true) (fun _ _ => True) True := by
    unfold nStepDenseIteratorBegin
    simp only [bind_assoc, pure_bind]
    apply Res.Sat.bind
    apply logCall_sat
    · intro q0 hq0
      refine gridRange_sat hp (more := fun k => decide (k < n)) (fun _ => rfl) (fun _ => rfl) ?_ hdt hq0
      intro i _
      simp only [nStepDenseIterator, decide_eq_true_eq]
      rfl
    · intro _ _; trivial
  obtain ⟨new, obs, h1, h2, h3, h4, h5, h6⟩ := key.of_ok hrun
  refine ⟨new, obs, h1, h2, ?_, fun b hb => (h4 b hb).1, fun b hb => (h4 b hb).2⟩
  have hge : n ≤ i.step := by simpa using h5
  have hle : i.step ≤ n := by
    by_contra h
    have := h6 n (by omega)
    simp at this
  rw [h3, show i.step = n by omega]
  rfl

/-- **C54** (`make_const_step_time_range`).  If the end time is not before the start time: going through the
range with a dense output stepper visits first the initial state, then exactly the times `t0 + k dt`,
`k = 1 … n`, that are not beyond `t1`; the state visited at a time was obtained by interpolation inside the
latest step, which contains that time. -/
theorem const_step_range_dense_spec (eps : K) (p : PureDense Q S K) (hp : DenseContract p) (q : Q) (x : S)
    (t0 t1 dt : K) (hdt : dt ≠ 0) (hle : ¬ Beyond eps dt t0 t1) (w w' : Log S K) (i : DenseGridIter Q S K)
    (hrun : (constDenseIteratorBegin (TimeArith.exact K eps) (loggedDense p) q x t0 t1 dt >>=
      (constDenseIterator (TimeArith.exact K eps) (loggedDense p) t0 t1 dt).forEach record) w = .ok i w') :
    ∃ (n : ℕ) (new : Log S K) (obs : List (S × K)), w' = w ++ new ∧ new.observations = (x, t0) :: obs ∧
      ((x, t0) :: obs).map Prod.snd = (List.range (n + 1)).map (fun k : ℕ => t0 + (k : K) * dt) ∧
      ¬ Beyond eps dt (t0 + (n : K) * dt) t1 ∧ Beyond eps dt (t0 + ((n + 1 : ℕ) : K) * dt) t1 ∧
      (∀ b ∈ obs, Beyond eps dt b.2 t0 → Interpolated p eps dt new b.1 b.2) ∧
      (∀ b ∈ obs, ¬ Beyond eps dt b.2 t0 →
        ∃ q0, p.init q x t0 dt = .ok q0 ∧ p.calcState q0 b.2 = .ok b.1) := by
  have key : ((constDenseIteratorBegin (TimeArith.exact K eps) (loggedDense p) q x t0 t1 dt >>=
      (constDenseIterator (TimeArith.exact K eps) (loggedDense p) t0 t1 dt).forEach record) w).Sat
      (fun i w' => ∃ new obs, w' = w ++ new ∧ new.observations = (x, t0) :: obs ∧
        ((x, t0) :: obs).map Prod.snd = gridTimes t0 dt (i.step + 1) ∧
        (∀ b ∈ obs, DenseObserved p eps dt q x t0 new b) ∧
        (TimeArith.exact K eps).lessEqWithSign (t0 + ((i.step + 1 : ℕ) : K) * dt) t1 dt = false ∧
        ∀ k < i.step, (TimeArith.exact K eps).lessEqWithSign (t0 + ((k + 1 : ℕ) : K) * dt) t1 dt = true)
      (fun _ _ => True) True := by
    unfold constDenseIteratorBegin
    rw [if_pos ((exact_lessEq _ _ _ _).mpr ((not_beyond_iff _ _ _ _).mp hle))]
    simp only [bind_assoc, pure_bind]
    apply Res.Sat.bind
    apply logCall_sat
    · intro q0 hq0
      refine gridRange_sat hp (more := fun k => (TimeArith.exact K eps).lessEqWithSign
        (t0 + ((k + 1 : ℕ) : K) * dt) t1 dt) (fun _ => rfl) (fun _ => rfl) ?_ hdt hq0
      intro i hi
      have : (TimeArith.exact K eps).add i.t dt = t0 + ((i.step + 1 : ℕ) : K) * dt := by
        show i.t + dt = _
        rw [hi]; push_cast; ring
      simp only [constDenseIterator, this]
      rfl
    · intro _ _; trivial
  obtain ⟨new, obs, h1, h2, h3, h4, h5, h6⟩ := key.of_ok hrun
  refine ⟨i.step, new, obs, h1, h2, h3, ?_, ?_, fun b hb => (h4 b hb).1, fun b hb => (h4 b hb).2⟩
  · cases hs : i.step with
    | zero => simpa using hle
    | succ k =>
      have := h6 k (by omega)
      rw [not_beyond_iff]
      exact (exact_lessEq _ _ _ _).mp this
  · rw [beyond_iff]
    exact (exact_lessEq_false _ _ _ _).mp h5

/-- **C54** (`make_const_step_time_range`, end before start): nothing is visited and the stepper is not
touched. -/
theorem const_step_range_dense_empty {W : Type} (A : TimeArith K) (st : DenseStepper Q W S K)
    (obs : Observer W S K) (q : Q) (x : S) (t0 t1 dt : K) (h : A.lessEqWithSign t0 t1 dt = false) (w : W) :
    (constDenseIteratorBegin A st q x t0 t1 dt >>= (constDenseIterator A st t0 t1 dt).forEach obs) w =
      .ok ⟨q, x, t0, 0, [], true⟩ w := by
  unfold constDenseIteratorBegin OdeIterator.forEach
  rw [h]
  simp only [Bool.false_eq_true, if_false, pure_bind]
  rw [whileM_false (by rfl)]
  rfl

theorem Res.Sat.congr {W α : Type} {m m' : M W α} {w : W} {P : α → W → Prop} {E : Err → W → Prop} {D : Prop}
    (h : m = m') (hs : (m' w).Sat P E D) : (m w).Sat P E D := h ▸ hs

/-- The stepping loop of the times iterator. -/
theorem timesAdvance_sat {p : PureDense Q S K} (hp : DenseContract p) {eps dt : K} (heps : 0 ≤ eps) {q : Q}
    {x : S} {t0 last : K} {w : Log S K} {τ : K} {q1 : Q} {w' new : Log S K} {obs : List (S × K)}
    (hlast : 0 ≤ dirSign dt * (last - τ))
    (h : GInv p eps dt q x t0 (some last) w τ q1 w' new obs) :
    (whileM (fun q => (TimeArith.exact K eps).lessWithSign ((loggedDense p).curTime q) τ dt)
        (fun q => do
          let q ←
            if (TimeArith.exact K eps).lessWithSign ((TimeArith.exact K eps).sub last ((loggedDense p).curTime q))
                ((loggedDense p).curDt q) ((loggedDense p).curDt q) then
              (loggedDense p).init q ((loggedDense p).curState q) ((loggedDense p).curTime q)
                ((TimeArith.exact K eps).sub last ((loggedDense p).curTime q))
            else pure q
          (loggedDense p).doStep q) q1 w').Sat
      (fun q2 w2 => (∃ new', GInv p eps dt q x t0 (some last) w τ q2 w2 new' obs) ∧
        ¬ Beyond eps dt τ (p.curTime q2))
      (fun _ _ => True) True := by
  refine (whileM_sat (W := Log S K) (fun q2 w2 => ∃ new', GInv p eps dt q x t0 (some last) w τ q2 w2 new' obs)
    (E := fun _ _ => True) ?_ ⟨new, h⟩).mono ?_ (fun _ _ h => h) id
  · rintro q2 w2 ⟨new', h2⟩ hc
    have hb : Beyond eps dt τ (p.curTime q2) := by
      rw [beyond_iff]
      exact (exact_less _ _ _ _).mp hc
    have hpos : eps < dirSign dt * (last - p.curTime q2) := by
      rw [beyond_iff] at hb
      have : dirSign dt * (last - p.curTime q2) = dirSign dt * (last - τ) + dirSign dt * (τ - p.curTime q2) := by
        ring
      linarith
    have hdir : SameDir dt (last - p.curTime q2) := by
      rcases h2.dir with ⟨a, _⟩ | ⟨a, _⟩
      · left; refine ⟨a, ?_⟩
        simp only [dirSign, a, if_true, one_mul] at hpos; linarith
      · right; refine ⟨a, ?_⟩
        simp only [dirSign, not_lt.mpr a.le, if_false] at hpos; linarith
    by_cases hclip : (TimeArith.exact K eps).lessWithSign (last - p.curTime q2) (p.curDt q2) (p.curDt q2) = true
    · refine Res.Sat.congr (if_pos hclip) ?_
      apply Res.Sat.bind
      apply logCall_sat
      · intro q3 hq3
        have e1 := hp.init_time _ _ _ _ _ hq3
        have e2 := hp.init_dt _ _ _ _ _ hq3
        apply logCall_sat
        · intro q4 hq4
          refine ⟨_, h2.step hp (l := [.init (p.curState q2) (p.curTime q2) (last - p.curTime q2)]) hb e1 ?_ hq4
            (by simp) ?_⟩
          · rw [e2]; exact hdir
          · intro l hl
            simp only [Option.mem_def, Option.some.injEq] at hl
            subst hl
            rw [e1, e2, not_beyond_iff]
            have : (loggedDense p).curTime q2 + (TimeArith.exact K eps).sub last ((loggedDense p).curTime q2) - last = 0 := by
              show p.curTime q2 + (last - p.curTime q2) - last = 0
              ring
            rw [this, mul_zero]; exact heps
        · intro _ _; trivial
      · intro _ _; trivial
    · refine Res.Sat.congr (if_neg hclip) ?_
      rw [pure_bind]
      apply logCall_sat
      · intro q3 hq3
        have := h2.step hp (l := []) hb rfl h2.dir hq3 (by simp) ?_
        · simp only [List.append_nil] at this
          exact ⟨_, this⟩
        · intro l hl
          simp only [Option.mem_def, Option.some.injEq] at hl
          subst hl
          rw [not_beyond_iff, dirSign_of_sameDir h2.dir]
          have := (exact_less_false _ _ _ _).mp (by simpa using hclip)
          have e : p.curTime q2 + p.curDt q2 - last = p.curDt q2 - (last - p.curTime q2) := by ring
          rw [e]; exact this
      · intro _ _; trivial
  · rintro q2 w2 ⟨⟨new', h2⟩, hc⟩
    refine ⟨⟨new', h2⟩, ?_⟩
    rw [not_beyond_iff]
    exact (exact_less_false _ _ _ _).mp hc

/-- **C54** (`make_times_time_range`).  For monotone times, going through the range with a dense output
stepper visits first the initial state, then each further requested time exactly once, in order and with
exactly that time; the state visited at a time was obtained by interpolation inside the latest step, which
contains that time (for times within `eps` of the start: from the freshly initialised stepper); no step was
attempted whose proposed end lies beyond the last requested time. -/
theorem times_range_dense_spec (eps : K) (heps : 0 ≤ eps) (p : PureDense Q S K)
    (hp : DenseContract p) (q : Q) (x : S) (t0 : K) (times : List K) (dt : K) (hdt : dt ≠ 0)
    (hmono : MonotoneTimes dt (t0 :: times)) (w w' : Log S K) (i : DenseGridIter Q S K)
    (hrun : (timesDenseIteratorBegin (loggedDense p) q x (t0 :: times) dt >>=
      (timesDenseIterator (TimeArith.exact K eps) (loggedDense p) (times.getLastD t0) dt).forEach record) w =
      .ok i w') :
    ∃ (new : Log S K) (obs : List (S × K)), w' = w ++ new ∧ new.observations = (x, t0) :: obs ∧
      obs.map Prod.snd = times ∧
      (∀ b ∈ obs, Beyond eps dt b.2 t0 → Interpolated p eps dt new b.1 b.2) ∧
      (∀ b ∈ obs, ¬ Beyond eps dt b.2 t0 →
        ∃ q0, p.init q x t0 dt = .ok q0 ∧ p.calcState q0 b.2 = .ok b.1) ∧
      (∀ x' t' d', Event.step x' t' d' ∈ new → ¬ Beyond eps dt (t' + d') (times.getLastD t0)) := by
  set last := times.getLastD t0 with hlast
  have hle : ∀ τ ∈ t0 :: times, 0 ≤ dirSign dt * (last - τ) := by
    intro τ hτ
    have := hmono.le_last (by simp) τ hτ
    rwa [show (t0 :: times).getLast (by simp) = last by
      rw [hlast, List.getLast_eq_getLastD]] at this
  have key : ((timesDenseIteratorBegin (loggedDense p) q x (t0 :: times) dt >>=
      (timesDenseIterator (TimeArith.exact K eps) (loggedDense p) last dt).forEach record) w).Sat
      (fun i w' => ∃ new obs, GInv p eps dt q x t0 (some last) w i.t i.q w' new obs ∧
        obs.head? = some (x, t0) ∧ obs.map Prod.snd = t0 :: times) (fun _ _ => True) True := by
    unfold timesDenseIteratorBegin
    simp only [bind_assoc, pure_bind]
    apply Res.Sat.bind
    apply logCall_sat
    swap
    · intro _ _; trivial
    intro q0 hq0
    unfold OdeIterator.forEach
    refine (whileM_sat (W := Log S K) (fun i w' => ∃ new obs,
        (i.atEnd = false ∧ (∃ r, i.rest = i.t :: r) ∧ GHead p eps dt q x t0 (some last) w i w' new obs ∧
          obs.map Prod.snd ++ i.rest = t0 :: times) ∨
        (i.atEnd = true ∧ GInv p eps dt q x t0 (some last) w i.t i.q w' new obs ∧
          obs.head? = some (x, t0) ∧ obs.map Prod.snd = t0 :: times))
      (E := fun _ _ => True) ?_ ?_).mono ?_ (fun _ _ h => h) id
    · rintro i w2 ⟨new, obs, h⟩ hc
      rcases h with ⟨h0, ⟨r, hr⟩, h, hg⟩ | ⟨h0, -⟩
      swap
      · simp [timesDenseIterator, h0] at hc
      simp only [show (timesDenseIterator (TimeArith.exact K eps) (loggedDense p) last dt).deref i = (i.x, i.t)
        from rfl]
      rw [record_bind]
      obtain ⟨hv, hh⟩ := h.visit hp
      simp only [timesDenseIterator, hr]
      cases r with
      | nil =>
        refine ⟨_, _, .inr ⟨rfl, hv, hh, ?_⟩⟩
        rw [← hg, hr]; simp
      | cons next r =>
        have hnext : 0 ≤ dirSign dt * (next - i.t) := by
          have hm : MonotoneTimes dt (i.t :: next :: r) := by
            unfold MonotoneTimes at hmono ⊢
            rw [← hg, hr] at hmono
            exact (List.pairwise_append.mp hmono).2.1
          exact hm.head_le next (by simp)
        have hmem : next ∈ t0 :: times := by rw [← hg, hr]; simp
        dsimp only
        apply Res.Sat.bind
        refine (timesAdvance_sat hp heps (hle next hmem) (hv.next hnext)).mono ?_ (fun _ _ h => h) id
        rintro q3 w3 ⟨⟨new3, h3⟩, hb3⟩
        apply Res.Sat.bind
        apply logCall_sat
        · intro y hy
          refine ⟨new3 ++ [.calc next], _, .inl ⟨h0, ⟨r, rfl⟩, h3.calc hh hb3
            (i := { i with q := q3, x := y, t := next, rest := next :: r }) rfl rfl hy, ?_⟩⟩
          rw [← hg, hr]; simp
        · intro _ _; trivial
    · refine ⟨[.init x t0 dt], [], .inl ⟨rfl, ⟨times, rfl⟩, ⟨⟨rfl, rfl, by simp, ?_, ?_, .inl hq0⟩,
        .inr ⟨rfl, rfl, rfl⟩, by simp⟩, rfl⟩⟩
      · intro l _ e he x' t' d' heq
        subst heq
        simp at he
      · show SameDir dt (p.curDt q0)
        rw [hp.init_dt _ _ _ _ _ hq0]
        exact SameDir.refl hdt
    · rintro i w2 ⟨⟨new, obs, h⟩, hc⟩
      rcases h with ⟨h0, -⟩ | ⟨-, h⟩
      · simp [timesDenseIterator, h0] at hc
      · exact ⟨new, obs, h⟩
  obtain ⟨new, obs, h1, h2, h3⟩ := key.of_ok hrun
  cases obs with
  | nil => simp at h2
  | cons b obs =>
    simp only [List.head?_cons, Option.some.injEq] at h2
    subst h2
    refine ⟨new, obs, h1.log, h1.observations, ?_, fun b hb => (h1.observed b hb).1,
      fun b hb => (h1.observed b hb).2, fun x' t' d' he => h1.within last rfl _ he _ _ _ rfl⟩
    simpa using h3

/-- Non-vacuity of C54: complete runs with the stepper `rampDense 2`, whose steps double, so that later grid
times lie inside one step. -/
example : DenseContract (rampDense (2:ℚ)) ∧ ∃ i w',
    (nStepDenseIteratorBegin (loggedDense (rampDense (2:ℚ))) (0, 0, 0) 5 0 1 >>=
      (nStepDenseIterator (TimeArith.exact ℚ 0) (loggedDense (rampDense 2)) 0 1 3).forEach record) [] =
      .ok i w' ∧ w' = [.init 5 0 1, .obs 5 0, .step 5 0 1, .calc 1, .obs 6 1, .step 6 1 2, .calc 2, .obs 7 2,
        .calc 3, .obs 8 3] := by
  refine ⟨rampDense_contract 2 (by norm_num), ?_⟩
  apply exists_eval
  · unfold nStepDenseIteratorBegin nStepDenseIterator OdeIterator.forEach advanceDense
    run_eval
  · norm_num [rampDense, loggedDense, TimeArith.exact]

example : MonotoneTimes (1 : ℚ) (0 :: [1/2, 3/2, 2]) ∧ ∃ i w',
    (timesDenseIteratorBegin (loggedDense (rampDense (2:ℚ))) (0, 0, 0) 5 [0, 1/2, 3/2, 2] 1 >>=
      (timesDenseIterator (TimeArith.exact ℚ 0) (loggedDense (rampDense 2)) 2 1).forEach record) [] =
      .ok i w' ∧ w' = [.init 5 0 1, .obs 5 0, .step 5 0 1, .calc (1/2), .obs (11/2) (1/2), .init 6 1 1,
        .step 6 1 1, .calc (3/2), .obs (13/2) (3/2), .calc 2, .obs 7 2] := by
  refine ⟨by unfold MonotoneTimes; norm_num, ?_⟩
  apply exists_eval
  · unfold timesDenseIteratorBegin timesDenseIterator OdeIterator.forEach
    run_eval
  · norm_num [rampDense, loggedDense, TimeArith.exact]

example : ¬ Beyond (0:ℚ) 1 0 (5/2) ∧ ∃ i w',
    (constDenseIteratorBegin (TimeArith.exact ℚ 0) (loggedDense (rampDense (2:ℚ))) (0, 0, 0) 5 0 (5/2) 1 >>=
      (constDenseIterator (TimeArith.exact ℚ 0) (loggedDense (rampDense 2)) 0 (5/2) 1).forEach record) [] =
      .ok i w' ∧ w' = [.init 5 0 1, .obs 5 0, .step 5 0 1, .calc 1, .obs 6 1, .step 6 1 2, .calc 2,
        .obs 7 2] := by
  refine ⟨by norm_num [Beyond], ?_⟩
  apply exists_eval
  · unfold constDenseIteratorBegin constDenseIterator OdeIterator.forEach advanceDense
    run_eval
  · norm_num [rampDense, loggedDense, TimeArith.exact]

end Verif
