import Verif.Props.InPlace
import Verif.Props.AdamsOrder
import Verif.Lemmas.Neville
import Verif.Lemmas.GraggLinear
import Verif.Lemmas.Trapezoid
import Mathlib.Data.Real.Basic

/-!
# C40, C41: Gragg's scheme and its extrapolation

`Spec/Extrapolation.lean` states Gragg's scheme as a function `graggValue` of the right-hand side.  The system
function may be any that returns `f x t` whenever it returns (`Returns sys f`).
-/

set_option linter.unusedSectionVars false

namespace Verif
open Polynomial
variable {K V W : Type} [Field K] [AddCommGroup V] [Module K V]

theorem Implements.value {os : List Owner} {h h' : Heap K V W} {p : StepM K V W Unit} {spec : M W V} {out : Loc}
    {exc : List Loc} (H : Implements os h p spec (fun v => [(out, v)]) exc) (ho : ¬ out.ownedBy os)
    (hp : p h = .ok () h') : spec h.world = .ok (h'.state out) h'.world := by
  unfold Implements at H
  split at H
  · rename_i a w hs
    obtain ⟨h'', h1, h2, h3⟩ := H
    rw [hp] at h1
    obtain ⟨-, rfl⟩ := Res.ok.inj h1
    have := (h3 out ho).1
    rw [hs, this, h2]
    simp [Heap.setAll]
  · obtain ⟨h'', h1, _⟩ := H; rw [hp] at h1; cases h1
  · rw [hp] at H; cases H
  · rw [hp] at H; cases H

theorem sys_bind_value {sys : Sys K V W} {f : V → K → V} (hs : Returns sys f) {x : V} {t : K} {w w' : W} {v : V}
    {g : V → M W V} (hr : (sys x t >>= g) w = .ok v w') : ∃ w1, g (f x t) w1 = .ok v w' := by
  rw [M.bind_apply] at hr
  cases hc : sys x t w with
  | ok d w1 =>
    rw [hc] at hr
    rw [hs _ _ _ _ _ hc] at hr
    exact ⟨w1, hr⟩
  | err e w1 => rw [hc] at hr; cases hr
  | ub => rw [hc] at hr; cases hr
  | div => rw [hc] at hr; cases hr

/-! ## C41 -/

/-- **C41.**  Whenever `modified_midpoint::do_step( sys , in , t , out , dt )` with `m` sub-steps returns, `out` (which may be the
same object as `in`) is the value of Gragg's scheme with `m` sub-steps. -/
theorem midpoint_gragg (m : ℕ) (hm : 1 ≤ m) (hm' : m < 65536) (sys : Sys K V W) (f : V → K → V) (hs : Returns sys f)
    (x out : ℕ) (t dt : K) (h h' : Heap K V W)
    (hr : doStep3 (midpointImpl m) sys (.user x) t (.user out) dt h = .ok () h') :
    h'.state (.user out) = graggValue f m (h.state (.user x)) t dt := by
  have H : Implements [.base, .midp] h (doStep3 (midpointImpl m) sys (.user x) t (.user out) dt)
      (sys (h.state (.user x)) t >>= fun k => midpointStep m sys (h.state (.user x)) k t dt)
      (fun v => [(.user out, v)]) [] := by
    unfold doStep3
    refine Implements.sys (by simp [mDxdt, Loc.ownedBy]) rfl fun k w => ?_
    have := (midpoint_implements m hm hm' sys (.user x) mDxdt (.user out) t dt (h.put mDxdt k w)
      (ownedBy_user _ _)).mono_own (os' := [.base, .midp]) (by simp)
    rwa [Heap.put_state_ne _ _ _ (by simp [mDxdt]), Heap.put_state_self] at this
  obtain ⟨w1, h1⟩ := sys_bind_value hs (H.value (ownedBy_user _ _) hr)
  exact midpointStep_returns hs m hm _ _ _ _ _ _ h1

/-- **C41.**  `do_step( sys , in , dxdt , t , out , dt )` with `m` sub-steps evaluates the right-hand side exactly `m` times. -/
theorem midpoint_evaluations (m : ℕ) (hm : 1 ≤ m) (hm' : m < 65536) (f : V → K → V) (x dxdt out : ℕ) (t dt : K)
    (h : Heap K V ℕ) :
    ∃ h', midpointImpl m (countSys f) (.user x) (.user dxdt) t (.user out) dt h = .ok () h' ∧
      h'.world = h.world + m := by
  have H := midpoint_implements m hm hm' (countSys f) (.user x) (.user dxdt) (.user out) t dt h (ownedBy_user _ _)
  unfold Implements at H
  obtain ⟨v, hv⟩ := midpointStep_count f m hm (h.state (.user x)) (h.state (.user dxdt)) t dt h.world
  rw [hv] at H
  obtain ⟨h', h1, h2, -⟩ := H
  exact ⟨h', h1, h2⟩

/-- **C41.**  For a right-hand side that depends on time only, the scheme is the trapezoidal rule with `m` intervals. -/
theorem midpoint_trapezoid [CharZero K] (g : K → V) (m : ℕ) (hm : 1 ≤ m) (x : V) (t dt : K) :
    graggValue (fun _ s => g s) m x t dt =
      x + ∑ i ∈ Finset.range m, (dt / m / 2) • (g (t + i * (dt / m)) + g (t + (i + 1 : ℕ) * (dt / m))) :=
  graggValue_time g m hm x t dt

/-- **C41.**  The scheme is exact, for every number of sub-steps, when the right-hand side is a polynomial of degree at
most one in `t`. -/
theorem midpoint_exact_linear_time [CharZero K] (a b : V) (m : ℕ) (hm : 1 ≤ m) (x : V) (t dt : K) :
    graggValue (fun _ s => a + s • b) m x t dt = x + dt • a + ((t + dt) ^ 2 / 2 - t ^ 2 / 2) • b := by
  have h0 : (m : K) ≠ 0 := by exact_mod_cast (by omega : m ≠ 0)
  have hc : (∑ i ∈ Finset.range m, (dt / m)) = dt := by
    rw [Finset.sum_const, Finset.card_range, nsmul_eq_mul]; field_simp
  have hs : (∑ i ∈ Finset.range m, (dt / m / 2 * ((t + i * (dt / m)) + (t + (i + 1 : ℕ) * (dt / m))))) =
      (t + dt) ^ 2 / 2 - t ^ 2 / 2 := by
    have tele := Finset.sum_range_sub (fun i : ℕ => (t + (i : K) * (dt / m)) ^ 2 / 2) m
    have e : (t + (m : K) * (dt / m)) ^ 2 / 2 - (t + ((0 : ℕ) : K) * (dt / m)) ^ 2 / 2 = (t + dt) ^ 2 / 2 - t ^ 2 / 2 := by
      rw [mul_div_cancel₀ _ h0]; simp
    rw [e] at tele
    rw [← tele]
    refine Finset.sum_congr rfl fun i _ => ?_
    push_cast
    ring
  rw [graggValue_time _ m hm, ← hs]
  conv_rhs => rw [← hc]
  rw [Finset.sum_smul, Finset.sum_smul, add_assoc, ← Finset.sum_add_distrib]
  congr 1
  refine Finset.sum_congr rfl fun i _ => ?_
  rw [hc]
  module

/-- **C41.**  For a linear system `x' = A x` and an even number `m` of sub-steps the value is a polynomial in `dt A` whose
coefficients are polynomials in `1 / m^2`: fixed polynomials, the same for all systems, states, step sizes and `m`; at `0` they are
the coefficients `1 / j!` of the exact solution. -/
theorem midpoint_even_powers [CharZero K] :
    ∃ q : ℕ → K[X], (∀ j, (q j).eval 0 = 1 / (j.factorial : K)) ∧
      ∀ (A : V →ₗ[K] V) (r : ℕ), 1 ≤ r → ∀ (x : V) (t dt : K),
        graggValue (fun y _ => A y) (2 * r) x t dt =
          ∑ j ∈ Finset.range (2 * r + 2), ((q j).eval (1 / ((2 * r : ℕ) : K) ^ 2) * dt ^ j) • (A ^ j) x := by
  refine ⟨graggQ, graggQ_zero, fun A r hr x t dt => ?_⟩
  have h0 : ((2 * r : ℕ) : K) ≠ 0 := by exact_mod_cast (by omega : 2 * r ≠ 0)
  rw [graggValue_linear A r hr, aeval_eq_sum_range' (lt_of_le_of_lt (graggS_degree r) (by omega : 2 * r + 1 < 2 * r + 2)),
    LinearMap.sum_apply]
  refine Finset.sum_congr rfl fun j _ => ?_
  rw [graggQ_coeff r hr j, smul_pow, LinearMap.smul_apply, LinearMap.smul_apply, smul_smul, div_pow]
  congr 1
  have := pow_ne_zero j h0
  field_simp

/-! ## C40 -/

/-- **C40.**  The tableau with coefficients `1 / ((n_k / n_i)^2 - 1)` eliminates an error expansion in even powers of
`h_i = H / n_i`: from results of the form `T + e_1 h_i^2 + ... + e_d h_i^(2d)` for `d + 1` different interval
numbers it produces `T`. -/
theorem neville_eliminates (n : ℕ → K) (hn : ∀ i, n i ≠ 0) (hinj : ∀ i j, n i ^ 2 = n j ^ 2 → i = j) (T : V) (e : ℕ → V) (H : K)
    (d k : ℕ) (hk : d ≤ k) :
    neville (fun k i => 1 / ((n k / n i) ^ 2 - 1)) (fun i => T + ∑ j ∈ Finset.range d, ((H / n i) ^ (2 * (j + 1))) • e j) d k = T := by
  set u : ℕ → K := fun i => 1 / n i ^ 2 with hu
  have hc : ∀ (y : ℕ → V) d k, d ≤ k →
      neville (fun k i => 1 / ((n k / n i) ^ 2 - 1)) y d k = neville (nodeCoeff u) y d k := by
    intro y d
    induction d with
    | zero => intro k _; rfl
    | succ d ih =>
      intro k hk
      have e1 : (1 / ((n k / n (k - (d + 1))) ^ 2 - 1) : K) = nodeCoeff u k (k - (d + 1)) := by
        have h1 := hn k
        have h2 := hn (k - (d + 1))
        have h3 : n k ^ 2 - n (k - (d + 1)) ^ 2 ≠ 0 := by
          rw [sub_ne_zero]; intro h; have := hinj _ _ h; omega
        simp only [nodeCoeff, hu]
        generalize n (k - (d + 1)) = b at *
        generalize n k = a at *
        have h4 : (a / b) ^ 2 - 1 = (a ^ 2 - b ^ 2) / b ^ 2 := by field_simp
        have h5 : 1 / b ^ 2 - 1 / a ^ 2 = (a ^ 2 - b ^ 2) / (a ^ 2 * b ^ 2) := by field_simp
        rw [h4, h5]
        field_simp
      simp only [neville, ih k (by omega), ih (k - 1) (by omega), e1]
  rw [hc _ _ _ hk]
  have hinj' : Set.InjOn u (Finset.Icc (k - d) k) := by
    intro a _ b _ h
    simp only [hu, one_div, inv_inj] at h
    exact hinj _ _ h
  have step : ∀ j ∈ Finset.range d, neville (nodeCoeff u) (fun i => ((H / n i) ^ (2 * (j + 1))) • e j) d k = 0 := by
    intro j hj
    have hj' := Finset.mem_range.1 hj
    rw [neville_smul]
    have hp := neville_poly u (C (H ^ (2 * (j + 1))) * X ^ (j + 1)) d k hk
      ((natDegree_C_mul_le _ _).trans ((natDegree_X_pow_le _).trans (by omega))) hinj'
    have : (fun i => (H / n i) ^ (2 * (j + 1))) = fun i => (C (H ^ (2 * (j + 1))) * X ^ (j + 1)).eval (u i) := by
      funext i
      simp only [eval_mul, eval_C, eval_pow, eval_X, hu]
      rw [div_pow, pow_mul (n i), div_pow, one_pow]
      ring
    rw [this, hp]
    simp
  have hT : neville (nodeCoeff u) (fun _ => T) d k = T := by
    have hp := neville_poly u (1 : K[X]) d k hk (by simp) hinj'
    have := neville_smul (nodeCoeff u) (fun _ => (1 : K)) T d k
    simp only [one_smul] at this
    rw [this]
    simp only [eval_one] at hp
    rw [hp, one_smul]
  rw [neville_add, neville_sum, Finset.sum_eq_zero step, hT, add_zero]

/-- **C40.**  Equal results are reproduced. -/
theorem neville_reproduces (n : ℕ → K) (hn : ∀ i, n i ≠ 0) (hinj : ∀ i j, n i ^ 2 = n j ^ 2 → i = j) (T : V)
    (d k : ℕ) (hk : d ≤ k) :
    neville (fun k i => 1 / ((n k / n i) ^ 2 - 1)) (fun _ => T) d k = T := by
  induction d generalizing k with
  | zero => rfl
  | succ d ih =>
    rw [neville, ih k (by omega), ih (k - 1) (by omega), lin_pair, lit_one]
    module

/-- What `extrapolation_stepper` computes. -/
theorem extrapolation_value (kmax : ℕ) (hk : kmax < 32767) (sys : Sys K V W) (f : V → K → V) (hs : Returns sys f)
    (x out : ℕ) (hne : x ≠ out) (t dt : K) (h h' : Heap K V W)
    (hr : doStep3 (extrapolationImpl kmax) sys (.user x) t (.user out) dt h = .ok () h') :
    h'.state (.user out) =
      neville (exCoeff (K := K)) (fun i => graggValue f (interval i) (h.state (.user x)) t dt) kmax kmax := by
  have H := extrapolation_outofplace_partial kmax hk sys x out hne t dt h
  obtain ⟨w1, h1⟩ := sys_bind_value hs (H.value (ownedBy_user _ _) hr)
  exact extrapolationStep_returns hs kmax _ _ _ _ _ _ h1

theorem midpointResults_count (f : V → K → V) (x k1 : V) (t dt : K) : ∀ n k ys w,
    ∃ ys', midpointResults (countSys f) x k1 t dt n k ys w = .ok ys' (w + (n * (n + 1) + 2 * k * n)) := by
  intro n
  induction n with
  | zero => intro k ys w; exact ⟨ys, by simp [midpointResults]; rfl⟩
  | succ n ih =>
    intro k ys w
    obtain ⟨v, hv⟩ := midpointStep_count f (interval k) (by unfold interval; omega) x k1 t dt w
    obtain ⟨ys', h'⟩ := ih (k + 1) (Function.update ys k v) (w + interval k)
    refine ⟨ys', ?_⟩
    rw [midpointResults, M.bind_apply, hv]
    simp only
    rw [h']
    congr 1
    unfold interval
    ring

/-- One step of `extrapolation_stepper< 2 kmax + 2 >` with a right-hand side that does not throw returns, after exactly
`1 + (2 + 4 + ... + 2 (kmax + 1))` evaluations. -/
theorem extrapolation_evaluations (kmax : ℕ) (hk : kmax < 32767) (f : V → K → V) (x out : ℕ) (hne : x ≠ out) (t dt : K)
    (h : Heap K V ℕ) :
    ∃ h', doStep3 (extrapolationImpl kmax) (countSys f) (.user x) t (.user out) dt h = .ok () h' ∧
      h'.world = h.world + (1 + (kmax + 1) * (kmax + 2)) := by
  have H := extrapolation_outofplace_partial kmax hk (countSys f) x out hne t dt h
  obtain ⟨v, hv⟩ := midpointStep_count f (interval 0) (by unfold interval; omega) (h.state (.user x)) (f (h.state (.user x)) t) t dt
    (h.world + 1)
  obtain ⟨ys, hys⟩ := midpointResults_count f (h.state (.user x)) (f (h.state (.user x)) t) t dt kmax 1 (fun _ => v)
    (h.world + 1 + interval 0)
  have e : (countSys f (h.state (.user x)) t >>= fun k => extrapolationStep kmax (countSys f) (h.state (.user x)) k t dt) h.world =
      .ok (neville (exCoeff (K := K)) ys kmax kmax) (h.world + (1 + (kmax + 1) * (kmax + 2))) := by
    rw [M.bind_apply]
    show extrapolationStep kmax (countSys f) (h.state (.user x)) (f (h.state (.user x)) t) t dt (h.world + 1) = _
    rw [extrapolationStep, extrapolationResults, M.bind_apply, M.bind_apply, hv]
    simp only
    rw [hys]
    simp only [M.pure_apply]
    congr 1
    unfold interval
    ring
  unfold Implements at H
  rw [e] at H
  obtain ⟨h', h1, h2, -⟩ := H
  exact ⟨h', h1, h2⟩

/-- **C40** for `extrapolation_stepper< 2 kmax + 2 >`: if Gragg's values for the interval numbers `2, 4, 6, ...` have the
expansion `T + e_1 h^2 + ... + e_kmax h^(2 kmax)` with `h = dt / (2 (i + 1))`, the stepper returns exactly `T`. -/
theorem extrapolation_eliminates [CharZero K] (kmax : ℕ) (hk : kmax < 32767) (sys : Sys K V W) (f : V → K → V)
    (hs : Returns sys f) (x out : ℕ) (hne : x ≠ out) (t dt : K) (h h' : Heap K V W) (T : V) (e : ℕ → V)
    (hform : ∀ i ≤ kmax, graggValue f (2 * (i + 1)) (h.state (.user x)) t dt =
      T + ∑ j ∈ Finset.range kmax, ((dt / ((2 * (i + 1) : ℕ) : K)) ^ (2 * (j + 1))) • e j)
    (hr : doStep3 (extrapolationImpl kmax) sys (.user x) t (.user out) dt h = .ok () h') :
    h'.state (.user out) = T := by
  rw [extrapolation_value kmax hk sys f hs x out hne t dt h h' hr]
  have e1 : (exCoeff (K := K)) = fun k i => 1 / ((((interval k : ℕ) : K) / ((interval i : ℕ) : K)) ^ 2 - 1) := by
    funext k i
    simp only [exCoeff, lit]
    push_cast
    rw [pow_two]
  rw [neville_congr _ (fun i => graggValue f (interval i) (h.state (.user x)) t dt) _ _ _ fun i hi => hform i hi, e1]
  refine neville_eliminates (fun i => ((interval i : ℕ) : K)) ?_ ?_ T e dt kmax kmax le_rfl
  · intro i; exact_mod_cast (by unfold interval; omega : interval i ≠ 0)
  · intro i j hij
    exact interval_inj (K := K) Set.univ trivial trivial (by simp only [hij])

/-- the trapezoidal sum of the derivative of `s^k` over `[t, t + dt]`, as a polynomial in `1 / m^2` -/
noncomputable def trapR (t dt : K) (k : ℕ) : K[X] :=
  ∑ d ∈ Finset.range k, C ((k : K) * ((k - 1).choose d : K) * t ^ (k - 1 - d) * dt ^ (d + 1)) * trapQ d

theorem trapR_degree [CharZero K] (t dt : K) (k : ℕ) : (trapR t dt k).natDegree ≤ (k - 1) / 2 := by
  unfold trapR
  refine natDegree_sum_le_of_forall_le _ _ fun d hd => ?_
  refine (natDegree_C_mul_le _ _).trans ((trapQ_degree d).trans ?_)
  have := Finset.mem_range.1 hd
  omega

theorem trapR_zero [CharZero K] (t dt : K) (k : ℕ) : (trapR t dt k).eval 0 = (t + dt) ^ k - t ^ k := by
  unfold trapR
  rw [eval_finset_sum, add_comm t dt, add_pow, Finset.sum_range_succ']
  simp only [pow_zero, one_mul, Nat.sub_zero, Nat.choose_zero_right, Nat.cast_one, mul_one, add_sub_cancel_right]
  refine Finset.sum_congr rfl fun d hd => ?_
  have hd' := Finset.mem_range.1 hd
  obtain ⟨n, rfl⟩ : ∃ n, k = n + 1 := ⟨k - 1, by omega⟩
  have hc : ((n + 1 : ℕ) : K) * (n.choose d : K) = ((n + 1).choose (d + 1) : K) * ((d : K) + 1) := by
    have := Nat.add_one_mul_choose_eq n d
    exact_mod_cast this
  have hd1 : ((d : K) + 1) ≠ 0 := by exact_mod_cast (by omega : d + 1 ≠ 0)
  simp only [eval_mul, eval_C, trapQ_zero, Nat.add_sub_cancel]
  rw [hc, show n + 1 - (d + 1) = n - d by omega]
  field_simp

theorem trapR_eval [CharZero K] (t dt : K) (k m : ℕ) (hm : 1 ≤ m) :
    (∑ i ∈ Finset.range m, dt / m / 2 * ((k : K) * (t + i * (dt / m)) ^ (k - 1) +
      (k : K) * (t + (i + 1 : ℕ) * (dt / m)) ^ (k - 1))) = (trapR t dt k).eval (1 / (m : K) ^ 2) := by
  rcases Nat.eq_zero_or_pos k with rfl | hk
  · simp [trapR]
  obtain ⟨n, rfl⟩ : ∃ n, k = n + 1 := ⟨k - 1, by omega⟩
  unfold trapR
  rw [eval_finset_sum]
  simp only [eval_mul, eval_C, Nat.add_sub_cancel]
  have e : ∀ d, ((n + 1 : ℕ) : K) * (n.choose d : K) * t ^ (n - d) * dt ^ (d + 1) * (trapQ (K := K) d).eval (1 / (m : K) ^ 2) =
      ∑ i ∈ Finset.range m, dt / m / 2 * (((n + 1 : ℕ) : K) * (((i : K) * (dt / m)) ^ d * t ^ (n - d) * (n.choose d : K)) +
        ((n + 1 : ℕ) : K) * ((((i + 1 : ℕ) : K) * (dt / m)) ^ d * t ^ (n - d) * (n.choose d : K))) := by
    intro d
    rw [mul_assoc, ← trap_pow d m hm dt, Finset.mul_sum]
    refine Finset.sum_congr rfl fun i _ => ?_
    ring
  rw [Finset.sum_congr rfl fun d _ => e d, Finset.sum_comm]
  refine Finset.sum_congr rfl fun i _ => ?_
  rw [add_comm t, add_comm t, add_pow, add_pow, Finset.mul_sum, Finset.mul_sum, ← Finset.sum_add_distrib, Finset.mul_sum]

/-- **C40**, consequence for quadrature: for a right-hand side that depends on time only and is the derivative of a polynomial of
degree at most `Order = 2 kmax + 2`, `extrapolation_stepper< Order >` is exact. -/
theorem extrapolation_quadrature [CharZero K] (kmax : ℕ) (hk : kmax < 32767) (sys : Sys K V W) (v : ℕ → V)
    (hs : Returns sys (fun _ s => polyDeriv v (2 * kmax + 2) s)) (x out : ℕ) (hne : x ≠ out) (t dt : K)
    (h h' : Heap K V W) (hr : doStep3 (extrapolationImpl kmax) sys (.user x) t (.user out) dt h = .ok () h') :
    h'.state (.user out) =
      h.state (.user x) + (poly v (2 * kmax + 2) (t + dt) - poly v (2 * kmax + 2) t) := by
  rw [extrapolation_value kmax hk sys _ hs x out hne t dt h h' hr, neville_exCoeff _ _ _ le_rfl]
  set u : ℕ → K := fun i => 1 / (interval i : K) ^ 2 with hu
  have hv : ∀ i ≤ kmax, graggValue (fun _ s => polyDeriv v (2 * kmax + 2) s) (interval i) (h.state (.user x)) t dt =
      (1 : K[X]).eval (u i) • h.state (.user x) +
        ∑ k ∈ Finset.range (2 * kmax + 2 + 1), (trapR t dt k).eval (u i) • v k := by
    intro i _
    rw [graggValue_time _ _ (by unfold interval; omega), eval_one, one_smul]
    congr 1
    simp only [hu, polyDeriv]
    have e : ∀ k, (trapR t dt k).eval (1 / ((interval i : ℕ) : K) ^ 2) • v k = _ := fun k => by
      rw [← trapR_eval t dt k (interval i) (by unfold interval; omega), Finset.sum_smul]
    rw [Finset.sum_congr (f := fun k => (trapR t dt k).eval (1 / ((interval i : ℕ) : K) ^ 2) • v k) rfl fun k _ => e k]
    rw [Finset.sum_comm]
    refine Finset.sum_congr rfl fun j _ => ?_
    rw [← Finset.sum_add_distrib, Finset.smul_sum]
    refine Finset.sum_congr rfl fun k _ => ?_
    module
  rw [neville_congr _ _ _ _ _ hv, neville_add, neville_smul, neville_poly u 1 kmax kmax le_rfl (by simp) (interval_inj _),
    neville_sum, eval_one, one_smul, poly_diff]
  congr 1
  refine Finset.sum_congr rfl fun k hk' => ?_
  have := Finset.mem_range.1 hk'
  rw [neville_smul, neville_poly u _ kmax kmax le_rfl ((trapR_degree t dt k).trans (by omega)) (interval_inj _), trapR_zero]

/-- **C40**, consequence for linear systems: with `x' = A x`, `extrapolation_stepper< Order >`, `Order = 2 kmax + 2`, returns the Taylor
polynomial of degree `Order` of `exp( dt A ) x`, plus one term of order `Order + 1`.  The local error is of order `Order + 1`. -/
theorem extrapolation_linear_order [CharZero K] (kmax : ℕ) (hk : kmax < 32767) :
    ∃ a : K, ∀ (sys : Sys K V W) (A : V →ₗ[K] V), Returns sys (fun y _ => A y) → ∀ (x out : ℕ), x ≠ out → ∀ (t dt : K)
      (h h' : Heap K V W), doStep3 (extrapolationImpl kmax) sys (.user x) t (.user out) dt h = .ok () h' →
      h'.state (.user out) =
        ∑ j ∈ Finset.range (2 * kmax + 3), (dt ^ j / (j.factorial : K)) • (A ^ j) (h.state (.user x)) +
          (a * dt ^ (2 * kmax + 3)) • (A ^ (2 * kmax + 3)) (h.state (.user x)) := by
  set u : ℕ → K := fun i => 1 / (interval i : K) ^ 2 with hu
  refine ⟨neville (nodeCoeff u) (fun i => (graggQ (K := K) (2 * kmax + 3)).eval (u i)) kmax kmax,
    fun sys A hs x out hne t dt h h' hr => ?_⟩
  rw [extrapolation_value kmax hk sys _ hs x out hne t dt h h' hr, neville_exCoeff _ _ _ le_rfl]
  have hv : ∀ i ≤ kmax, graggValue (fun y _ => A y) (interval i) (h.state (.user x)) t dt =
      ∑ j ∈ Finset.range (2 * kmax + 4), (graggQ (K := K) j).eval (u i) • (dt ^ j • (A ^ j) (h.state (.user x))) := by
    intro i hi
    have h0 : ((2 * (i + 1) : ℕ) : K) ≠ 0 := by exact_mod_cast (by omega : 2 * (i + 1) ≠ 0)
    rw [show interval i = 2 * (i + 1) from rfl, graggValue_linear A (i + 1) (by omega),
      aeval_eq_sum_range' (lt_of_le_of_lt (graggS_degree (i + 1)) (by omega : 2 * (i + 1) + 1 < 2 * kmax + 4)),
      LinearMap.sum_apply]
    refine Finset.sum_congr rfl fun j _ => ?_
    rw [graggQ_coeff (i + 1) (by omega) j, smul_pow, LinearMap.smul_apply, LinearMap.smul_apply, smul_smul, smul_smul, div_pow]
    congr 1
    have := pow_ne_zero j h0
    simp only [hu, interval]
    field_simp
  rw [neville_congr _ _ _ _ _ hv, neville_sum, show 2 * kmax + 4 = (2 * kmax + 3) + 1 from rfl, Finset.sum_range_succ]
  congr 1
  · refine Finset.sum_congr rfl fun j hj => ?_
    have hj' := Finset.mem_range.1 hj
    rw [neville_smul, neville_poly u _ kmax kmax le_rfl ((graggQ_degree j).trans (by omega)) (interval_inj _), graggQ_zero, smul_smul]
    congr 1
    ring
  · rw [neville_smul, smul_smul]

/-! ## Non-vacuity -/

/-- a run of `modified_midpoint` with two sub-steps on `x' = x` -/
example (h : Heap ℚ ℚ ℕ) : ∃ h', doStep3 (midpointImpl 2) (countSys fun (x : ℚ) (_ : ℚ) => x) (.user 0) 0 (.user 1) 1 h = .ok () h' :=
  ⟨_, rfl⟩

/-- every counted pure function is a system that returns it -/
example (f : V → K → V) : Returns (countSys f) f := by
  intro x t w v w' h
  exact (Res.ok.inj h).1.symm

/-- interval numbers `2, 4, 6, ...` are admissible in `neville_eliminates`, and so is any strictly increasing positive sequence -/
example (n : ℕ → ℝ) (h0 : ∀ i, 0 < n i) (hm : StrictMono n) : (∀ i, n i ≠ 0) ∧ ∀ i j, n i ^ 2 = n j ^ 2 → i = j :=
  ⟨fun i => (h0 i).ne', fun i j h => hm.injective ((sq_eq_sq₀ (h0 i).le (h0 j).le).1 h)⟩

/-- the value of Gragg's scheme for `x' = x` with two sub-steps of size `1/2` -/
example : graggValue (fun (x : ℚ) (_ : ℚ) => x) 2 1 0 1 = 21 / 8 := by
  norm_num [graggValue, gragg]

end Verif
