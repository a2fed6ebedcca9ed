import Verif.Lemmas.ControlledGrid
import Verif.Props.IntegrateControlled

/-!
# C07: integrate_n_steps and integrate_const with a controlled stepper

`f` is an arbitrary `try_step`.  Every interval of the grid is one run of `integrate_adaptive`, for which
C04 applies.
-/

namespace Verif
variable {Q S T : Type}

/-- **C07** (`integrate_n_steps`, normal return): if `integrate_adaptive` returns on each of the `n`
intervals, the observer is called at the grid points `0..n` and nowhere else, with the states produced by
`integrate_adaptive`, the state variable holds the last one and the last grid point is returned. -/
theorem integrate_n_steps_controlled_grid (A : TimeArith T)
    (f : Q → S → T → T → Except Err (TryResult Q S T)) (q : Q) (x : S) (t0 dt : T) (n : ℕ)
    (X : ℕ → S) (D : ℕ → T) (N : ℕ → ℕ) (L : ℕ → Log S T)
    (h : GridRun A f q x (gridTime A t0 dt) dt n X D N L) (w : Log S T) :
    integrateNStepsControlled A (loggedControlled f) record q x t0 dt n w =
      .ok (X n, gridTime A t0 dt n)
        (w ++ intervalCalls X (gridTime A t0 dt) L n ++ [.obs (X n) (gridTime A t0 dt n)]) := by
  have := nStepsControlledLoop_grid A f q t0 dt X D N L 0 n 0 w (fun i _ hi => h.interval i (by omega))
  rw [h.state0, h.dt0] at this
  unfold integrateNStepsControlled
  simp only [Nat.add_zero, Nat.zero_add, nStepsControlledLoop, intervalCalls, List.range_zero,
    List.flatMap_nil, List.append_nil] at this
  rw [M.bind_ok (show nStepsControlledLoop A (loggedControlled f) record q t0 dt n 0 x t0 dt w = _ from this)]
  rfl

/-- **C07** (`integrate_n_steps`, failure): if `integrate_adaptive` throws on interval `m`, the exception
propagates after the observations at grid points `0..m`; if it does not terminate, neither does
`integrate_n_steps`. -/
theorem integrate_n_steps_controlled_failure (A : TimeArith T)
    (f : Q → S → T → T → Except Err (TryResult Q S T)) (q : Q) (x : S) (t0 dt : T) (n m : ℕ) (hm : m < n)
    (X : ℕ → S) (D : ℕ → T) (N : ℕ → ℕ) (L : ℕ → Log S T)
    (h : GridRun A f q x (gridTime A t0 dt) dt m X D N L) (w : Log S T) :
    (∀ e Le, integrateAdaptiveControlled A (loggedControlled f) record q (X m) (gridTime A t0 dt m)
        (A.add (gridTime A t0 dt m) dt) (D m) [] = .err e Le →
      integrateNStepsControlled A (loggedControlled f) record q x t0 dt n w =
        .err e (w ++ intervalCalls X (gridTime A t0 dt) L m ++
          .obs (X m) (gridTime A t0 dt m) :: Le.withoutObs)) ∧
    (integrateAdaptiveControlled A (loggedControlled f) record q (X m) (gridTime A t0 dt m)
        (A.add (gridTime A t0 dt m) dt) (D m) [] = .div →
      integrateNStepsControlled A (loggedControlled f) record q x t0 dt n w = .div) := by
  obtain ⟨k, rfl⟩ : ∃ k, n = m + (k + 1) := ⟨n - m - 1, by omega⟩
  have := nStepsControlledLoop_grid A f q t0 dt X D N L 0 m (k + 1) w
    (fun i _ hi => h.interval i (by omega))
  rw [h.state0, h.dt0] at this
  simp only [Nat.zero_add, intervalCalls, List.range_zero, List.flatMap_nil, List.append_nil] at this
  have h' : nStepsControlledLoop A (loggedControlled f) record q t0 dt (m + (k + 1)) 0 x t0 dt w = _ := this
  unfold integrateNStepsControlled
  constructor
  · intro e Le he
    refine M.bind_err ?_ _
    rw [h', nStepsControlledLoop, M.bind_ok (record_apply _ _ _), M.bind_err (adaptive_null_of_err he _)]
    simp [intervalCalls]
  · intro hd
    show M.bind _ _ _ = _
    unfold M.bind
    rw [h', nStepsControlledLoop, M.bind_ok (record_apply _ _ _)]
    have hd' := adaptive_null_of_div hd
      (w ++ intervalCalls X (gridTime A t0 dt) L m ++ [.obs (X m) (gridTime A t0 dt m)])
    simp only [intervalCalls] at hd'
    rw [M.bind_apply, hd']

/-- **C07** (`integrate_n_steps`): these are all cases. -/
theorem integrate_n_steps_controlled_cases (A : TimeArith T)
    (f : Q → S → T → T → Except Err (TryResult Q S T)) (q : Q) (x : S) (t0 dt : T) (n : ℕ) :
    (∃ X D N L, GridRun A f q x (gridTime A t0 dt) dt n X D N L) ∨
    ∃ m < n, ∃ X D N L, GridRun A f q x (gridTime A t0 dt) dt m X D N L ∧
      ∀ r L', integrateAdaptiveControlled A (loggedControlled f) record q (X m) (gridTime A t0 dt m)
        (A.add (gridTime A t0 dt m) dt) (D m) [] ≠ .ok r L' :=
  gridRun_or A f q x (gridTime A t0 dt) dt n

/-- **C07** (`integrate_const`, normal return): as `integrate_n_steps`, with `n` the first index at which
the library's end test fails; the total number of accepted steps is returned. -/
theorem integrate_const_controlled_grid (A : TimeArith T)
    (f : Q → S → T → T → Except Err (TryResult Q S T)) (q : Q) (x : S) (t0 t1 dt : T) (n : ℕ)
    (X : ℕ → S) (D : ℕ → T) (N : ℕ → ℕ) (L : ℕ → Log S T)
    (h : GridRun A f q x (gridTime A t0 dt) dt n X D N L)
    (hc : ∀ k < n, A.lessEqWithSign (A.add (gridTime A t0 dt k) dt) t1 (D k) = true)
    (hn : A.lessEqWithSign (A.add (gridTime A t0 dt n) dt) t1 (D n) = false) (w : Log S T) :
    integrateConstControlled A (loggedControlled f) record q x t0 t1 dt w =
      .ok (X n, ((List.range n).map N).sum)
        (w ++ intervalCalls X (gridTime A t0 dt) L n ++ [.obs (X n) (gridTime A t0 dt n)]) := by
  have := constControlled_grid A f q t0 t1 dt X D N L 0 n w
    (fun i _ hi => ⟨hc i (by omega), h.interval i (by omega)⟩)
  rw [h.state0, h.dt0] at this
  simp only [Nat.zero_add, intervalCalls, List.range_zero, List.flatMap_nil, List.append_nil,
    List.map_nil, List.sum_nil, show gridTime A t0 dt 0 = t0 from rfl] at this
  unfold integrateConstControlled
  rw [M.bind_ok (this.trans (whileM_stop
    (cond := fun s : CtrlState S T => A.lessEqWithSign (A.add s.time dt) t1 s.dt) hn))]
  rfl

/-- **C07** (`integrate_const`, exception). -/
theorem integrate_const_controlled_failure (A : TimeArith T)
    (f : Q → S → T → T → Except Err (TryResult Q S T)) (q : Q) (x : S) (t0 t1 dt : T) (m : ℕ)
    (X : ℕ → S) (D : ℕ → T) (N : ℕ → ℕ) (L : ℕ → Log S T)
    (h : GridRun A f q x (gridTime A t0 dt) dt m X D N L)
    (hc : ∀ k ≤ m, A.lessEqWithSign (A.add (gridTime A t0 dt k) dt) t1 (D k) = true) (e : Err)
    (Le : Log S T)
    (he : integrateAdaptiveControlled A (loggedControlled f) record q (X m) (gridTime A t0 dt m)
        (A.add (gridTime A t0 dt m) dt) (D m) [] = .err e Le) (w : Log S T) :
    integrateConstControlled A (loggedControlled f) record q x t0 t1 dt w =
      .err e (w ++ intervalCalls X (gridTime A t0 dt) L m ++
          .obs (X m) (gridTime A t0 dt m) :: Le.withoutObs) := by
  have := constControlled_grid A f q t0 t1 dt X D N L 0 m w
    (fun i _ hi => ⟨hc i (by omega), h.interval i (by omega)⟩)
  rw [h.state0, h.dt0] at this
  simp only [Nat.zero_add, intervalCalls, List.range_zero, List.flatMap_nil, List.append_nil,
    List.map_nil, List.sum_nil, show gridTime A t0 dt 0 = t0 from rfl] at this
  unfold integrateConstControlled
  refine M.bind_err (this.trans ?_) _
  refine (whileM_step_err
    (cond := fun s : CtrlState S T => A.lessEqWithSign (A.add s.time dt) t1 s.dt) (hc m le_rfl)
    (e := e) ?_)
  rw [M.bind_ok (record_apply _ _ _), M.bind_err (adaptive_null_of_err he _)]
  simp [intervalCalls]

/-- **C07** (`integrate_const`): whenever it returns, the preceding theorem applies. -/
theorem integrate_const_controlled_returns (A : TimeArith T)
    (f : Q → S → T → T → Except Err (TryResult Q S T)) (q : Q) (x : S) (t0 t1 dt : T) (w w' : Log S T)
    (r : S × ℕ) (hrun : integrateConstControlled A (loggedControlled f) record q x t0 t1 dt w = .ok r w') :
    ∃ n X D N L, GridRun A f q x (gridTime A t0 dt) dt n X D N L ∧
      (∀ k < n, A.lessEqWithSign (A.add (gridTime A t0 dt k) dt) t1 (D k) = true) ∧
      A.lessEqWithSign (A.add (gridTime A t0 dt n) dt) t1 (D n) = false := by
  have key : (whileM
      (fun s : CtrlState S T => A.lessEqWithSign (A.add s.time dt) t1 s.dt)
      (fun s => do
        record s.x s.time
        let r ← integrateAdaptiveControlled A (loggedControlled f) nullObserver q s.x s.time
          (A.add s.time dt) s.dt
        return ⟨r.x, A.add t0 (A.nmul (s.step + 1) dt), r.dt, s.step + 1, s.real + r.count⟩)
      ⟨x, t0, dt, 0, 0⟩ w).Sat (fun _ _ => ∃ n X D N L, GridRun A f q x (gridTime A t0 dt) dt n X D N L ∧
      (∀ k < n, A.lessEqWithSign (A.add (gridTime A t0 dt k) dt) t1 (D k) = true) ∧
      A.lessEqWithSign (A.add (gridTime A t0 dt n) dt) t1 (D n) = false) (fun _ _ => True) True := by
    refine (whileM_sat (fun (s : CtrlState S T) _ => ∃ X D N L,
        GridRun A f q x (gridTime A t0 dt) dt s.step X D N L ∧
        (∀ k < s.step, A.lessEqWithSign (A.add (gridTime A t0 dt k) dt) t1 (D k) = true) ∧
        s.x = X s.step ∧ s.dt = D s.step ∧ s.time = gridTime A t0 dt s.step)
      (E := fun _ _ => True) ?_ ?_).mono ?_ (fun _ _ h => h) id
    · rintro ⟨sx, st, sd, n, c⟩ w1 ⟨X, D, N, L, hG, hc, h1, h2, h3⟩ hcond
      simp only at hG hc h1 h2 h3 hcond ⊢
      subst h1; subst h2; subst h3
      apply Res.Sat.bind
      rw [record_apply]
      show Res.Sat _ _ _ _
      apply Res.Sat.bind
      cases hr : integrateAdaptiveControlled A (loggedControlled f) nullObserver q (X n)
          (gridTime A t0 dt n) (A.add (gridTime A t0 dt n) dt) (D n)
          (w1 ++ [.obs (X n) (gridTime A t0 dt n)]) with
      | ok r w2 =>
        obtain ⟨L', hL, -⟩ := adaptive_null_ok hr
        refine ⟨fun k => if k ≤ n then X k else r.x, fun k => if k ≤ n then D k else r.dt,
          fun k => if k < n then N k else r.count, fun k => if k < n then L k else L',
          ⟨by simpa using hG.state0, by simpa using hG.dt0, ?_⟩, ?_, by simp, by simp, rfl⟩
        · intro k hk
          rcases Nat.lt_succ_iff_lt_or_eq.mp hk with hk | rfl
          · obtain ⟨t', ht⟩ := hG.interval k hk
            exact ⟨t', by simpa [hk, hk.le, Nat.succ_le_of_lt hk] using ht⟩
          · exact ⟨r.t, by simpa using hL⟩
        · intro k hk
          rcases Nat.lt_succ_iff_lt_or_eq.mp hk with hk | rfl
          · simpa [hk.le] using hc k hk
          · simpa using hcond
      | err e w2 => trivial
      | div => trivial
      | ub => exact absurd (adaptive_null_ub hr) (adaptiveControlled_ne_ub A f q _ _ _ _ _)
    · exact ⟨fun _ => x, fun _ => dt, fun _ => 0, fun _ => [], ⟨rfl, rfl, by simp⟩, by simp, rfl, rfl, rfl⟩
    · rintro ⟨sx, st, sd, n, c⟩ w1 ⟨⟨X, D, N, L, hG, hc, h1, h2, h3⟩, hcond⟩
      simp only at hG hc h1 h2 h3 hcond ⊢
      subst h1; subst h2; subst h3
      exact ⟨n, X, D, N, L, hG, hc, hcond⟩
  unfold integrateConstControlled at hrun
  rw [M.bind_apply] at hrun
  revert key hrun
  generalize whileM _ _ _ _ = res
  intro hrun key
  cases res with
  | ok a b => exact key
  | err e b => cases hrun
  | div => cases hrun
  | ub => cases hrun

section Exact
variable {K : Type} [Field K] [LinearOrder K] [IsStrictOrderedRing K]

/-- In exact arithmetic an interval run gives accepted steps from grid point to grid point. -/
theorem GridRun.exact {eps : K} (heps : 0 ≤ eps)
    {f : Q → S → K → K → Except Err (TryResult Q S K)} (hf : ExactContract eps f)
    {q : Q} {x : S} {t0 dt : K} (hdt : dt ≠ 0) {n : ℕ} {X : ℕ → S} {D : ℕ → K} {N : ℕ → ℕ}
    {L : ℕ → Log S K}
    (h : GridRun (TimeArith.exact K eps) f q x (gridTime (TimeArith.exact K eps) t0 dt) dt n X D N L) :
    (∀ k ≤ n, SameDir dt (D k)) ∧
    ∀ k < n, (L k).acceptCount = N k ∧ ∃ path : List (S × K), ∃ t', path.length = N k + 1 ∧
      path.head? = some (X k, t0 + k * dt) ∧ path.getLast? = some (X (k + 1), t') ∧
      |t' - (t0 + (k + 1 : ℕ) * dt)| ≤ eps ∧
      path.IsChain (AcceptedStep f eps dt (t0 + (k + 1 : ℕ) * dt)) := by
  have hg : ∀ k, gridTime (TimeArith.exact K eps) t0 dt k = t0 + k * dt := exact_grid eps t0 dt
  have hdir : ∀ k ≤ n, SameDir dt (D k) := by
    intro k
    induction k with
    | zero => intro _; rw [h.dt0]; exact SameDir.refl hdt
    | succ k ih =>
      intro hk
      obtain ⟨t', ht⟩ := h.interval k (by omega)
      have hd := ih (by omega)
      obtain ⟨_, _, _, _, _, _, _, _, h8, _⟩ :=
        integrate_adaptive_controlled_spec eps heps f hf q _ _ _ _ hd.ne_zero _ _ _ ht
      exact hd.trans h8
  refine ⟨hdir, fun k hk => ?_⟩
  obtain ⟨t', ht⟩ := h.interval k hk
  have hd := hdir k hk.le
  have hend : (TimeArith.exact K eps).add (gridTime (TimeArith.exact K eps) t0 dt k) dt =
      t0 + (k + 1 : ℕ) * dt := by
    rw [hg]; show t0 + k * dt + dt = _; push_cast; ring
  rw [hend, hg] at ht
  obtain ⟨obs, h1, h2, h3, h4, h5, h6, _, _, _, h9⟩ :=
    integrate_adaptive_controlled_spec eps heps f hf q _ _ _ _ hd.ne_zero _ _ _ ht
  refine ⟨by simpa [Log.acceptCount] using h3, obs, t', h2, h4, h5, h9 ?_, ?_⟩
  · rw [not_beyond_iff]
    have : dirSign (D k) * (t0 + k * dt - (t0 + (k + 1 : ℕ) * dt)) = - (dirSign dt * dt) := by
      rw [← dirSign_of_sameDir hd]; push_cast; ring
    rw [this, dirSign_mul_self]
    linarith [abs_nonneg dt]
  · refine h6.imp ?_
    rintro a b ⟨q1, d, r, a1, a2, a3, a4, a5, a6, a7⟩
    exact ⟨q1, d, r, a1, a2, a3, a4, a5, hd.trans a6, by rwa [beyond_congr hd]⟩

/-- **C07** (`integrate_n_steps`, exact arithmetic, controlled-stepper concept): when it returns, the
observer has been called with `X k` at exactly `t0 + k*dt` for `k = 0..n` and at no other time; `X (k+1)` is
reached from `X k` by accepted steps ending within `eps` of `t0 + (k+1)*dt`; the returned time is
`t0 + n*dt`. -/
theorem integrate_n_steps_controlled_exact (eps : K) (heps : 0 ≤ eps)
    (f : Q → S → K → K → Except Err (TryResult Q S K)) (hf : ExactContract eps f)
    (q : Q) (x : S) (t0 dt : K) (hdt : dt ≠ 0) (n : ℕ) (w w' : Log S K) (r : S × K)
    (hrun : integrateNStepsControlled (TimeArith.exact K eps) (loggedControlled f) record q x t0 dt n w =
      .ok r w') :
    ∃ X : ℕ → S, X 0 = x ∧ r = (X n, t0 + n * dt) ∧
      w'.observations = w.observations ++ (List.range (n + 1)).map (fun k => (X k, t0 + k * dt)) ∧
      ∀ k < n, ∃ path : List (S × K), ∃ t', path.head? = some (X k, t0 + k * dt) ∧
        path.getLast? = some (X (k + 1), t') ∧ |t' - (t0 + (k + 1 : ℕ) * dt)| ≤ eps ∧
        path.IsChain (AcceptedStep f eps dt (t0 + (k + 1 : ℕ) * dt)) := by
  have hg : gridTime (TimeArith.exact K eps) t0 dt = fun k : ℕ => t0 + k * dt :=
    funext (exact_grid eps t0 dt)
  rcases integrate_n_steps_controlled_cases (TimeArith.exact K eps) f q x t0 dt n with
    ⟨X, D, N, L, h⟩ | ⟨m, hm, X, D, N, L, h, hno⟩
  · have h1 := integrate_n_steps_controlled_grid _ f q x t0 dt n X D N L h w
    rw [hrun] at h1
    injection h1 with h1 h2
    refine ⟨X, h.state0, by rw [h1, hg], ?_, fun k hk => ?_⟩
    · rw [h2, observations_append, observations_append, intervalCalls_observations, List.range_succ, hg]
      simp [Log.observations]
    · obtain ⟨_, path, t', _, a⟩ := (h.exact heps hf hdt).2 k hk
      exact ⟨path, t', a⟩
  · have h1 := integrate_n_steps_controlled_failure _ f q x t0 dt n m hm X D N L h w
    rw [hrun] at h1
    exfalso
    revert h1 hno
    cases hc : integrateAdaptiveControlled (TimeArith.exact K eps) (loggedControlled f) record q (X m)
      (gridTime (TimeArith.exact K eps) t0 dt m)
      ((TimeArith.exact K eps).add (gridTime (TimeArith.exact K eps) t0 dt m) dt) (D m) [] with
    | ok r L' => intro hno; exact absurd rfl (hno r L')
    | err e L' => rintro - ⟨h1, -⟩; cases h1 e L' rfl
    | div => rintro - ⟨-, h1⟩; cases h1 rfl
    | ub => exact absurd hc (adaptiveControlled_ne_ub _ f q _ _ _ _ _)

/-- **C07** (`integrate_const`, exact arithmetic): as above for the `n` intervals that fit: grid points
`1..n` are not beyond `t1 (+eps)`, grid point `n+1` is.  The number of accepted steps is returned. -/
theorem integrate_const_controlled_exact (eps : K) (heps : 0 ≤ eps)
    (f : Q → S → K → K → Except Err (TryResult Q S K)) (hf : ExactContract eps f)
    (q : Q) (x : S) (t0 t1 dt : K) (hdt : dt ≠ 0) (w w' : Log S K) (r : S × ℕ)
    (hrun : integrateConstControlled (TimeArith.exact K eps) (loggedControlled f) record q x t0 t1 dt w =
      .ok r w') :
    ∃ (n : ℕ) (X : ℕ → S), X 0 = x ∧ r.1 = X n ∧ w'.acceptCount = w.acceptCount + r.2 ∧
      w'.observations = w.observations ++ (List.range (n + 1)).map (fun k => (X k, t0 + k * dt)) ∧
      (∀ k : ℕ, 1 ≤ k → k ≤ n → ¬ Beyond eps dt (t0 + k * dt) t1) ∧
      Beyond eps dt (t0 + (n + 1 : ℕ) * dt) t1 ∧
      ∀ k < n, ∃ path : List (S × K), ∃ t', path.head? = some (X k, t0 + k * dt) ∧
        path.getLast? = some (X (k + 1), t') ∧ |t' - (t0 + (k + 1 : ℕ) * dt)| ≤ eps ∧
        path.IsChain (AcceptedStep f eps dt (t0 + (k + 1 : ℕ) * dt)) := by
  have hg : gridTime (TimeArith.exact K eps) t0 dt = fun k : ℕ => t0 + k * dt :=
    funext (exact_grid eps t0 dt)
  obtain ⟨n, X, D, N, L, h, hc, hn⟩ := integrate_const_controlled_returns _ f q x t0 t1 dt w w' r hrun
  have h1 := integrate_const_controlled_grid _ f q x t0 t1 dt n X D N L h hc hn w
  rw [hrun] at h1
  injection h1 with h1 h2
  obtain ⟨hdir, hpath⟩ := h.exact heps hf hdt
  have hcond : ∀ k ≤ n, (TimeArith.exact K eps).lessEqWithSign
      ((TimeArith.exact K eps).add (gridTime (TimeArith.exact K eps) t0 dt k) dt) t1 (D k) = true ↔
      ¬ Beyond eps dt (t0 + (k + 1 : ℕ) * dt) t1 := by
    intro k hk
    rw [← exact_const_cond eps t0 t1 dt k, exact_lessEq, exact_lessEq, dirSign_of_sameDir (hdir k hk)]
  refine ⟨n, X, h.state0, by rw [h1], ?_, ?_, ?_, ?_, fun k hk => ?_⟩
  · rw [h2, acceptCount_append, acceptCount_append, intervalCalls_acceptCount, h1]
    simp only [Log.acceptCount, Nat.add_assoc]
    congr 1
    have : (List.range n).map (fun k => (L k).acceptCount) = (List.range n).map N :=
      List.map_congr_left fun k hk => (hpath k (List.mem_range.mp hk)).1
    unfold Log.acceptCount at this
    rw [this]; simp
  · rw [h2, observations_append, observations_append, intervalCalls_observations, List.range_succ, hg]
    simp [Log.observations]
  · intro k k1 k2
    obtain ⟨j, rfl⟩ : ∃ j, k = j + 1 := ⟨k - 1, by omega⟩
    exact (hcond j (by omega)).mp (hc j (by omega))
  · by_contra hb
    rw [(hcond n le_rfl).mpr hb] at hn
    cases hn
  · obtain ⟨_, path, t', _, a⟩ := hpath k hk
    exact ⟨path, t', a⟩

/-- Non-vacuity of C07: `demoTry` (which refuses steps longer than `1/8`) on the backward grid `-k/8`; the
step size left over from an interval (`-1/4`) is shortened again in the next one. -/
theorem demoTry_gridRun (n : ℕ) : GridRun (TimeArith.exact ℚ 0) demoTry 0 0
    (gridTime (TimeArith.exact ℚ 0) 0 (-1/8)) (-1/8) n (fun k => -(k : ℚ) / 8)
    (fun k => if k = 0 then -1/8 else -1/4) (fun _ => 1)
    (fun k => [.obs (-(k : ℚ) / 8) (-(k : ℚ) / 8), .tried (-(k : ℚ) / 8) (-(k : ℚ) / 8) (-1/8) true,
      .obs (-((k + 1 : ℕ) : ℚ) / 8) (-((k + 1 : ℕ) : ℚ) / 8)]) where
  state0 := by simp
  dt0 := by simp
  interval := by
    intro k _
    have hclip : clipDt (TimeArith.exact ℚ 0) (-(k : ℚ) / 8) (-(k : ℚ) / 8 + -1/8)
        (if k = 0 then -1/8 else -1/4) = -1/8 := by
      unfold clipDt
      split_ifs <;> norm_num [TimeArith.exact, TimeArith.lessWithSign] at *
    refine ⟨-((k + 1 : ℕ) : ℚ) / 8, ?_⟩
    have h := adaptiveControlled_one (A := TimeArith.exact ℚ 0) (f := demoTry) (q := 0)
      (x := -(k : ℚ) / 8) (t0 := -(k : ℚ) / 8) (t1 := -(k : ℚ) / 8 + -1/8)
      (dt := if k = 0 then -1/8 else -1/4)
      (r := ⟨1, -((k + 1 : ℕ) : ℚ) / 8, -((k + 1 : ℕ) : ℚ) / 8, -1/4, true⟩) ?_ ?_ rfl ?_ []
    · rw [hclip] at h
      have e : gridTime (TimeArith.exact ℚ 0) 0 (-1/8) k = -(k : ℚ) / 8 := by rw [exact_grid]; ring
      rw [e]
      exact h
    · split_ifs <;> norm_num [TimeArith.exact, TimeArith.lessWithSign]
    · rw [hclip]
      simp only [demoTry]
      rw [if_pos (by norm_num [abs_of_neg])]
      push_cast
      congr 2 <;> ring
    · norm_num [TimeArith.exact, TimeArith.lessWithSign]; linarith

/-- The observations of such a run. -/
example : integrateNStepsControlled (TimeArith.exact ℚ 0) (loggedControlled demoTry) record 0 0 0 (-1/8) 2
    [] = .ok (-1/4, -1/4) [.obs 0 0, .tried 0 0 (-1/8) true, .obs (-1/8) (-1/8),
      .tried (-1/8) (-1/8) (-1/8) true, .obs (-1/4) (-1/4)] := by
  rw [integrate_n_steps_controlled_grid _ _ _ _ _ _ _ _ _ _ _ (demoTry_gridRun 2)]
  norm_num [intervalCalls, List.range_succ, Log.withoutObs, Event.isObs, exact_grid]

/-- The end test of `integrate_const` on such a run: for `t1 = -0.3` two intervals fit. -/
example : (∀ k < 2, (TimeArith.exact ℚ 0).lessEqWithSign ((TimeArith.exact ℚ 0).add
      (gridTime (TimeArith.exact ℚ 0) 0 (-1/8) k) (-1/8)) (-3/10) (if k = 0 then -1/8 else -1/4) = true) ∧
    (TimeArith.exact ℚ 0).lessEqWithSign ((TimeArith.exact ℚ 0).add
      (gridTime (TimeArith.exact ℚ 0) 0 (-1/8) 2) (-1/8)) (-3/10) (-1/4) = false := by
  refine ⟨fun k hk => ?_, by time_eval⟩
  interval_cases k <;> time_eval

/-- Non-vacuity of the failure cases: a stepper that throws on the first interval. -/
example : integrateAdaptiveControlled (TimeArith.exact ℚ 0)
    (loggedControlled (fun (_ : ℕ) _ _ _ => .error (.user 3))) record 0 (0 : ℚ) 0 1 1 [] =
      .err (.user 3) [.obs 0 0] := by
  unfold integrateAdaptiveControlled
  refine M.bind_err (whileM_step_err
    (cond := fun p : AdaptState ℕ ℚ ℚ × ℕ => (TimeArith.exact ℚ 0).lessWithSign p.1.t 1 p.1.dt)
    (by time_eval) (e := .user 3) (w' := [Event.obs (0:ℚ) (0:ℚ)]) (s := (⟨0, 0, 0, 1, 0, true⟩, 0)) ?_) _
  rw [record_bind]
  rfl

end Exact

end Verif
