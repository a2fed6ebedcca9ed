import Verif.Lemmas.GridRun
import Verif.Lemmas.GlobalError

/-! # C63: the integrate functions with a fixed step size converge with the order of the stepper -/

namespace Verif
open Finset Filter Topology BSeries

variable {V W Q : Type}

theorem seqObs_observations (X : ℕ → V) (t0 dt : ℝ) (n : ℕ) :
    Log.observations (seqObs X t0 dt 0 n) = (List.range n).map fun i : ℕ => (X i, t0 + (i : ℝ) * dt) := by
  simp only [Log.observations, seqObs, zero_add, List.filterMap_map]
  exact congrFun List.filterMap_eq_map' _

variable [NormedAddCommGroup V] [NormedSpace ℝ V]

/-- Convergence of steppers that follow sequences with a global error of order `p`. -/
theorem converges_of_follows {p : ℕ} {φ : ℝ → V} {st : BasicStepper Q (W × Log V ℝ) V ℝ} {fresh : Q → Prop}
    (H : ∀ a b T : ℝ, ∃ C, 0 ≤ C ∧ ∀ (t0 dt : ℝ) (x0 : V) (q : Q), fresh q → dt ≠ 0 → |dt| ≤ 1 → ∃ (X : ℕ → V) (R : ℕ → Q → Prop),
      X 0 = x0 ∧ R 0 q ∧ Follows st t0 dt X R ∧
      (∀ n : ℕ, n * |dt| ≤ T → (∀ k ≤ n, t0 + (k : ℝ) * dt ∈ Set.Icc a b) → ‖X n - φ (t0 + n * dt)‖ ≤ C * (‖x0 - φ t0‖ + |dt| ^ p)) ∧
      ∀ (n : ℕ) (h : ℝ), n * |dt| ≤ T → (∀ k ≤ n, t0 + (k : ℝ) * dt ∈ Set.Icc a b) → |h| ≤ |dt| →
        ∃ y, (∀ w l, ∃ q' w', st.doStep q (X n) (t0 + n * dt) h (w, l) = .ok (q', y) (w', l)) ∧
          ‖y - φ (t0 + n * dt + h)‖ ≤ C * (‖x0 - φ t0‖ + |dt| ^ p)) : ConvergesWithOrder p st fresh φ := by
  intro a b
  obtain ⟨C, hC, hglob⟩ := H (a - 1) (b + 1) (b - a + 1)
  refine ⟨C, ?_⟩
  intro eps t0 t1 dt x0 q w l hq he0 he1 ht0 ht1 hdt hdt1 A bound grid
  obtain ⟨X, R, hX0, hR, hst, hgrid', hstep'⟩ := hglob t0 dt x0 q hq hdt hdt1
  -- grid points that are reached
  have hmid : ∀ n : ℕ, t0 + n * dt ∈ Set.Icc (a - 1) (b + 1) → ∀ k ≤ n, t0 + (k : ℝ) * dt ∈ Set.Icc (a - 1) (b + 1) := by
    intro n h2 k hk
    have hk' : (k : ℝ) ≤ n := by exact_mod_cast hk
    have hk0 : (0 : ℝ) ≤ k := Nat.cast_nonneg k
    obtain ⟨h3, h4⟩ := h2
    obtain ⟨h5, h6⟩ := ht0
    rcases le_total 0 dt with h | h
    · exact ⟨by nlinarith, by nlinarith⟩
    · exact ⟨by nlinarith, by nlinarith⟩
  -- the error on the grid
  have hgrid : ∀ n : ℕ, n * |dt| ≤ b - a + 1 → t0 + n * dt ∈ Set.Icc (a - 1) (b + 1) → ∀ k ≤ n, ‖X k - φ (t0 + k * dt)‖ ≤ bound := by
    intro n h1 h2 k hk
    have hk' : (k : ℝ) ≤ n := by exact_mod_cast hk
    exact hgrid' k (by nlinarith [abs_nonneg dt]) fun i hi => hmid n h2 i (by omega)
  have hclose : ∀ n : ℕ, n * |dt| ≤ b - a + 1 → t0 + n * dt ∈ Set.Icc (a - 1) (b + 1) → CloseTo φ bound (seqObs X t0 dt 0 (n + 1)) := by
    intro n h1 h2 o ho
    rw [seqObs_observations] at ho
    obtain ⟨i, hi, rfl⟩ := List.mem_map.1 ho
    exact hgrid n h1 h2 i (by have := List.mem_range.1 hi; omega)
  have htimes : ∀ n : ℕ, (Log.observations (seqObs X t0 dt 0 (n + 1))).map Prod.snd = grid n := by
    intro n
    rw [seqObs_observations, List.map_map]
    rfl
  have hlast : ∀ n : ℕ, (X n, t0 + n * dt) ∈ Log.observations (seqObs X t0 dt 0 (n + 1)) := by
    intro n
    rw [seqObs_observations]
    exact List.mem_map.2 ⟨n, List.mem_range.2 (by omega), rfl⟩
  -- how far `integrate_const` goes
  obtain ⟨n, hlt, hn⟩ := exists_last_grid eps t0 t1 dt hdt
  have hreach : n * |dt| ≤ b - a + 1 ∧ t0 + n * dt ∈ Set.Icc (a - 1) (b + 1) := by
    obtain ⟨a1, a2⟩ := ht0
    obtain ⟨b1, b2⟩ := ht1
    rcases Nat.eq_zero_or_pos n with rfl | hpos
    · simp only [Nat.cast_zero, zero_mul, add_zero, Set.mem_Icc]
      exact ⟨by linarith, by linarith, by linarith⟩
    · have h := hlt (n - 1) (by omega)
      rw [Nat.sub_add_cancel hpos] at h
      have hn0 : (0 : ℝ) ≤ n := Nat.cast_nonneg n
      unfold Beyond at h
      split at h
      · rename_i hp
        rw [abs_of_pos hp]
        exact ⟨by linarith, by nlinarith, by linarith⟩
      · rename_i hp
        rw [abs_of_nonpos (not_lt.1 hp)]
        exact ⟨by linarith, by linarith, by nlinarith⟩
  refine ⟨?_, ?_, ?_⟩
  · rintro m hm
    obtain ⟨w', e⟩ := follow_nSteps hst eps m q w l hR
    rw [hX0] at e
    have h1 : m * |dt| ≤ b - a + 1 := by
      have : (m : ℝ) * |dt| = |t1 - t0| := by rw [hm, add_sub_cancel_left, abs_mul, Nat.abs_cast]
      rw [this, abs_le]
      obtain ⟨a1, a2⟩ := ht0
      obtain ⟨b1, b2⟩ := ht1
      constructor <;> linarith
    have h2 : t0 + m * dt ∈ Set.Icc (a - 1) (b + 1) := by
      rw [← hm]
      exact ⟨by linarith [ht1.1], by linarith [ht1.2]⟩
    rw [hm]
    exact ⟨_, w', _, e, htimes m, hclose m h1 h2, hgrid m h1 h2 m le_rfl⟩
  · obtain ⟨w', e⟩ := follow_const hst eps t1 n hlt hn q w l hR
    rw [hX0] at e
    exact ⟨_, n, w', _, e, htimes n, hclose n hreach.1 hreach.2, hgrid n hreach.1 hreach.2 n le_rfl⟩
  · intro hfwd
    by_cases hb : Beyond eps dt t1 (t0 + n * dt)
    · have hd : |t1 - (t0 + n * dt)| ≤ |dt| := by
        unfold Beyond at hb hn
        push_cast at hn
        split at hb
        · rename_i hp
          rw [if_pos hp] at hn
          rw [abs_of_pos hp, abs_le]
          constructor <;> linarith
        · rename_i hp
          rw [if_neg hp] at hn
          rw [abs_of_nonpos (not_lt.1 hp), abs_le]
          constructor <;> linarith
      obtain ⟨y, hy, hstep⟩ := hstep' n _ hreach.1 (hmid n hreach.2) hd
      rw [add_sub_cancel] at hstep
      obtain ⟨w', ⟨hb', e⟩ | ⟨-, e⟩⟩ := follow_adaptive hst eps t1 n hlt hn q w l hR y hy
      · exact absurd hb hb'
      rw [hX0] at e
      refine ⟨_, n + 1, w', _, e, ?_, t1, by simpa using he0, ?_, hstep⟩
      · intro o ho
        simp only [Log.observations, List.filterMap_append, List.mem_append] at ho
        rcases ho with ho | ho
        · exact hclose n hreach.1 hreach.2 o ho
        · simp only [List.filterMap_cons, List.filterMap_nil, List.mem_singleton] at ho
          rw [ho]
          exact hstep
      · simp [Log.observations]
    · obtain ⟨w', e⟩ : ∃ w', integrateAdaptiveBasic A st recordObserver q x0 t0 t1 dt (w, l) = .ok (X n, n) (w', l ++ seqObs X t0 dt 0 (n + 1)) := by
        obtain ⟨w', e⟩ := follow_const hst eps t1 n hlt hn q w l hR
        refine ⟨w', ?_⟩
        rw [hX0] at e
        rw [integrateAdaptiveBasic, M.bind_ok e]
        dsimp only
        rw [if_neg]
        · rfl
        · rw [Bool.not_eq_true]
          exact (exact_less_false _ _ _ _).mpr ((not_beyond_iff _ _ _ _).mp hb)
      refine ⟨_, n, w', _, e, hclose n hreach.1 hreach.2, t0 + n * dt, ?_, hlast n, hgrid n hreach.1 hreach.2 n le_rfl⟩
      have hnb : ¬ Beyond eps dt (t0 + n * dt) t1 := by
        rcases Nat.eq_zero_or_pos n with rfl | hpos
        · simpa using hfwd
        · have := hlt (n - 1) (by omega)
          rwa [Nat.sub_add_cancel hpos] at this
      have h1 := (not_beyond_iff _ _ _ _).mp hb
      have h2 := (not_beyond_iff _ _ _ _).mp hnb
      rw [← abs_dirSign_mul dt, abs_le]
      constructor <;> linarith

variable [CompleteSpace V]

theorem converges_of_stepFn {p : ℕ} {f : V → ℝ → V} (hf : GoodRhs f (p + 1)) {φ : ℝ → V} (hφ : IsFlowLine f φ)
    {st : BasicStepper Q (W × Log V ℝ) V ℝ} {R : Q → V → ℝ → Prop} {Φ : V → ℝ → ℝ → V} (hst : StepFn st R Φ) (hΦ : RegularStep (p + 1) Φ)
    (hord : ∀ t, LocalOrder p (Φ (φ t) t) t φ) {fresh : Q → Prop} (hR : ∀ q x t, fresh q → R q x t) : ConvergesWithOrder p st fresh φ := by
  refine converges_of_follows fun a b T => ?_
  obtain ⟨C, hC, hglob⟩ := global_error hf hΦ hφ hord a b (T + 1) 1
  refine ⟨C, hC, fun t0 dt x0 q hq hdt hdt1 => ⟨orbit Φ t0 dt x0, _, rfl, hR _ _ _ hq, hst.follows t0 dt x0, ?_, ?_⟩⟩
  · intro n hn hin
    have hd : ∀ i : ℕ, t0 + ((i + 1 : ℕ) : ℝ) * dt - (t0 + (i : ℝ) * dt) = dt := fun i => by push_cast; ring
    have := hglob n (fun i => t0 + (i : ℝ) * dt) (orbit Φ t0 dt x0) |dt| hdt1 (fun i hi => ⟨hin i hi.le, by rw [hd], by rw [hd]; rfl⟩)
      (by simp only [hd, sum_const, card_range, nsmul_eq_mul]; linarith) (abs_nonneg _)
    simpa [orbit] using this
  · intro n h hn hin hh
    refine ⟨Φ (orbit Φ t0 dt x0 n) (t0 + n * dt) h, fun w l => ?_, ?_⟩
    · obtain ⟨q1, w1, e1, -⟩ := hst q _ (t0 + n * dt) h w l (hR _ _ _ hq)
      exact ⟨q1, w1, e1⟩
    · have := hglob (n + 1) (fun i => if i ≤ n then t0 + (i : ℝ) * dt else t0 + n * dt + h)
          (fun i => if i ≤ n then orbit Φ t0 dt x0 i else Φ (orbit Φ t0 dt x0 n) (t0 + n * dt) h) |dt| hdt1 ?_ ?_ (abs_nonneg _)
      · simpa [orbit] using this
      · intro i hi
        by_cases hlt : i < n
        · simp only [show i ≤ n by omega, show i + 1 ≤ n by omega, if_true]
          rw [show t0 + ((i + 1 : ℕ) : ℝ) * dt - (t0 + (i : ℝ) * dt) = dt by push_cast; ring]
          exact ⟨hin i hlt.le, le_rfl, rfl⟩
        · obtain rfl : i = n := by omega
          simp only [le_refl, if_true, show ¬ i + 1 ≤ i by omega, if_false, add_sub_cancel_left]
          exact ⟨hin i le_rfl, hh, trivial⟩
      · rw [sum_range_succ]
        have : ∀ i ∈ range n, |(if i + 1 ≤ n then t0 + ((i + 1 : ℕ) : ℝ) * dt else t0 + n * dt + h) - (if i ≤ n then t0 + (i : ℝ) * dt else t0 + n * dt + h)| = |dt| := by
          intro i hi
          have hi := mem_range.1 hi
          rw [if_pos (by omega), if_pos (by omega)]
          congr 1
          push_cast
          ring
        rw [sum_congr rfl this]
        simp only [sum_const, card_range, nsmul_eq_mul, show ¬ n + 1 ≤ n by omega, le_refl, if_true, if_false, add_sub_cancel_left]
        linarith

theorem GoodRhs.smoothAt {f : V → ℝ → V} {n p : ℕ} (hf : GoodRhs f n) (h : p ≤ n) (x : V) (t : ℝ) : SmoothAt f p x t :=
  (hf.smooth.of_le (by exact_mod_cast h)).contDiffAt

theorem IsFlowLine.isSolution {f : V → ℝ → V} {φ : ℝ → V} (hφ : IsFlowLine f φ) (t : ℝ) : IsSolution f (φ t) t φ :=
  ⟨rfl, Eventually.of_forall hφ⟩

theorem explicit_stepFn (s : ExplicitStepper ℝ) (hw : s.WellFormed) {sys : Sys ℝ V W} {f : V → ℝ → V} (hs : Evaluates sys f)
    {Φ : V → ℝ → ℝ → V} (hΦ : ∀ x t h w, ∃ w', s.recipe sys x (f x t) t h w = .ok (Φ x t h) w') :
    StepFn (stepperObject (K := ℝ) fun l t dt => doStep1 s.impl sys l t dt) (fun _ _ _ => True) Φ := by
  intro q x t dt w l _
  obtain ⟨w1, e1⟩ := hs.bind x t w fun k => s.recipe sys x k t dt
  obtain ⟨w2, e2⟩ := hΦ x t dt w1
  have H := doStep1_implements s hw sys (.user 0) t dt ((q.set (.user 0) x).withWorld w) (ownedBy_user _ _)
  have hx : ((q.set (.user 0) x).withWorld w).state (.user 0) = x := by simp [Heap.withWorld, Heap.set]
  rw [hx] at H
  obtain ⟨heap', r1, r2⟩ := H.total (e1.trans e2)
  refine ⟨heap', heap'.world, ?_, trivial⟩
  have h3 : heap'.state (.user 0) = Φ x t dt := by rw [r2 _ (ownedBy_user _ _)]; simp [Heap.setAll]
  simp only [stepperObject, r1, h3]

/-- **C63**.  For every Runge-Kutta stepper (and Euler's method and the modified midpoint method) whose `order()` is `p`, in any state of its memory, and
every right hand side that is `p+1` times continuously differentiable and Lipschitz continuous in the state, the integrate functions converge with
order `p`. -/
theorem explicit_steppers_converge (s : ExplicitStepper ℝ) (hw : s.WellFormed) {p : ℕ} (hp : s.order = some p) {sys : Sys ℝ V W} {f : V → ℝ → V}
    (hs : Evaluates sys f) (hf : GoodRhs f (p + 1)) {φ : ℝ → V} (hφ : IsFlowLine f φ) :
    ConvergesWithOrder p (stepperObject (K := ℝ) fun l t dt => doStep1 s.impl sys l t dt) (fun _ => True) φ := by
  obtain ⟨Φ, h1, h2, h3⟩ := recipe_regular s hw hp hs
  exact converges_of_stepFn hf hφ (explicit_stepFn s hw hs h1) (h2.regular hf)
    (fun t => h3 _ _ _ (hf.smoothAt (by omega) _ _) (hφ.isSolution t)) fun _ _ _ _ => trivial

/-- A step of `runge_kutta_dopri5` from the derivative that the stepper has stored, or from a new one if there is none. -/
theorem dopri5_step_from {sys : Sys ℝ V W} {f : V → ℝ → V} (hs : Evaluates sys f) (resized : Bool) (q : Heap ℝ V W) (x : V) (t dt : ℝ) (w : W)
    (l : Log V ℝ) :
    let k := if resized || q.flag mFirstCall then f x t else q.state mDxdt
    ∃ q', (stepperObject (K := ℝ) fun l t dt => fsalStep1 dopri5Impl resized sys l t dt).doStep q x t dt (w, l) =
        .ok (q', (dopri5Fun f x k t dt).x) (q'.world, l) ∧
      q'.state mDxdt = f (dopri5Fun f x k t dt).x (t + dt) ∧ q'.flag mFirstCall = false := by
  intro k
  set h0 := (q.set (.user 0) x).withWorld w with hh0
  have hx : h0.state (.user 0) = x := by simp [hh0, Heap.withWorld, Heap.set]
  have hd : h0.state mDxdt = q.state mDxdt := by simp [hh0, Heap.withWorld, Heap.set, mDxdt]
  have hfl : h0.flag mFirstCall = q.flag mFirstCall := rfl
  -- the derivative the step starts from
  obtain ⟨h1, e1, a1, a2, a3⟩ : ∃ h1, fsalPrepare resized sys (.user 0) t h0 = .ok () h1 ∧ h1.state mDxdt = k ∧ h1.state (.user 0) = x ∧
      h1.flag mFirstCall = false := by
    unfold fsalPrepare
    rw [M.bind_ok (m := getFlag mFirstCall) (w' := h0) (a := h0.flag mFirstCall) rfl, hfl]
    simp only [k]
    split
    · obtain ⟨w', e⟩ := hs x t h0.world
      refine ⟨(h0.put mDxdt (f x t) w').putFlag mFirstCall false, ?_, ?_, ?_, ?_⟩
      · unfold fsalInitialize
        rw [M.bind_ok (m := callSys sys (.user 0) mDxdt t) (w' := h0.put mDxdt (f x t) w') (a := ())]
        · rfl
        · unfold callSys
          rw [hx, e]
      · simp [Heap.putFlag, Heap.put]
      · simpa [Heap.putFlag, Heap.put, mDxdt] using hx
      · simp [Heap.putFlag]
    · rename_i hc
      simp only [Bool.or_eq_true, not_or, Bool.not_eq_true] at hc
      exact ⟨h0, rfl, hd, hx, hc.2⟩
  obtain ⟨w2, e2⟩ := dopri5Step_value hs x k t dt h1.world
  have H := dopri5_implements sys (.user 0) mDxdt (.user 0) mDxdt t dt h1 (ownedBy_user _ _) (by simp [mDxdt, Loc.ownedBy]) (ownedBy_user _ _)
    (by simp [mDxdt, Loc.ownedBy]) (by simp [mDxdt])
  rw [a1, a2] at H
  unfold Implements at H
  rw [e2] at H
  obtain ⟨h2, r1, -, r2⟩ := H
  have b1 : h2.state (.user 0) = (dopri5Fun f x k t dt).x := by
    rw [(r2 _ (ownedBy_user _ _)).1]; simp [Heap.setAll, mDxdt, Heap.set_state_apply]
  have b2 : h2.state mDxdt = f (dopri5Fun f x k t dt).x (t + dt) := by
    rw [(r2 _ (by simp [mDxdt, Loc.ownedBy])).1]; simp [Heap.setAll, mDxdt]; rfl
  have b3 : h2.flag mFirstCall = false := by
    rw [(r2 _ (by simp [mFirstCall, Loc.ownedBy])).2.2.1, ← a3]; simp [Heap.setAll]
  refine ⟨h2, ?_, b2, b3⟩
  have e : fsalStep1 dopri5Impl resized sys (.user 0) t dt h0 = .ok () h2 := by
    unfold fsalStep1
    rw [M.bind_ok e1]
    exact r1
  simp only [stepperObject, ← hh0, e, b1]

theorem dopri5_stepFn {sys : Sys ℝ V W} {f : V → ℝ → V} (hs : Evaluates sys f) (resized : Bool) :
    StepFn (stepperObject (K := ℝ) fun l t dt => fsalStep1 dopri5Impl resized sys l t dt) (fun q x t => DopriReady f x t q)
      (fun x t h => (dopri5Fun f x (f x t) t h).x) := by
  intro q x t dt w l hq
  obtain ⟨q', e, h1, -⟩ := dopri5_step_from hs resized q x t dt w l
  have : (if resized || q.flag mFirstCall then f x t else q.state mDxdt) = f x t := by
    split
    · rfl
    · rename_i hc
      simp only [Bool.or_eq_true, not_or, Bool.not_eq_true] at hc
      rcases hq with hq | hq
      · rw [hq] at hc
        exact absurd hc.2 (by simp)
      · exact hq
  rw [this] at e h1
  exact ⟨q', _, e, .inr h1⟩

/-- **C63** for `runge_kutta_dopri5`, with a stepper that has not been used (or has been reset): `integrate_adaptive` makes its last step with the
stepper it was called with, and the derivative that stepper has stored would be used for it (see `adaptive_last_step_stale`). -/
theorem dopri5_converges {sys : Sys ℝ V W} {f : V → ℝ → V} (hs : Evaluates sys f) (hf : GoodRhs f 6) {φ : ℝ → V} (hφ : IsFlowLine f φ)
    (resized : Bool) :
    ConvergesWithOrder 5 (stepperObject (K := ℝ) fun l t dt => fsalStep1 dopri5Impl resized sys l t dt) (fun q => q.flag mFirstCall = true) φ := by
  refine converges_of_stepFn (p := 5) hf hφ (dopri5_stepFn hs resized) ?_
    (fun t => dopri5_order_value (hf.smoothAt (by omega) _ _) (hφ.isSolution t)) fun q x t hq => .inl hq
  have := (stageFn_isRk dopri5Tableau f).regular hf
  simpa only [dopri5Fun_stages] using this

end Verif
