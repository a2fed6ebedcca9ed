import Verif.Lemmas.ExtrapolationInPlace
import Verif.Model.AdamsDefault
import Verif.Props.AdamsConvergence
import Verif.Props.ConvergenceWitness

/-! # C69: the Adams methods with their default initialising steppers -/

namespace Verif
variable {W : Type}

theorem abDefaultInit_eq {N : ℕ} (h8 : N ≤ 8) : ∃ kmax, 1 ≤ kmax ∧ kmax < 32767 ∧ abDefaultInit ℝ N = .extrapolation kmax := by
  refine ⟨(orderHelper N - 2) / 2, ?_, ?_, rfl⟩
  · have : 4 ≤ orderHelper N := le_max_right _ _
    omega
  · have : orderHelper N ≤ 9 := by unfold orderHelper; split <;> omega
    omega

/-- One step of `adams_bashforth` in place, initialised with `extrapolation_stepper`, for `x' = 1`. -/
theorem abStep_unit (N : ℕ) (coef : List ℝ) (kmax : ℕ) (hk : kmax < 32767) :
    ∃ c : ℝ, 1 + kmax ≤ c ∧ ∀ (h : Heap ℝ ℝ W) (past : List ℝ) (t dt : ℝ), AdamsMemory N h past →
      AdamsOutcome abOwners N h (.user 0) (abStep N coef (.extrapolation kmax) unitSys false (.user 0) t (.user 0) dt h)
        (.ok (if past.length + 1 < N then h.state (.user 0) + c * dt else abFormula coef (h.state (.user 0)) dt (1 :: past),
          (1 :: past).take (N - 1)) h.world) := by
  have hu : ∀ os, ¬ (Loc.user 0).ownedBy os := user_not_owned 0
  obtain ⟨c, hc, H⟩ := extrapolationImpl_unit (W := W) kmax hk (.user 0) (hu _)
  refine ⟨c, hc, fun h past t dt hm => ?_⟩
  by_cases hlt : past.length + 1 < N
  · rw [if_pos hlt]
    obtain ⟨hf, hcnt, hs⟩ := hm
    have hlt' : h.nat mStepsInit + 1 < N := by omega
    have key := evalStore (N := N) (h := h) (past := past) hf (by omega) hs (decide (h.nat mStepsInit ≠ 0))
      (fun h0 => by
        simp only [decide_eq_false_iff_not, not_not] at h0
        exact List.eq_nil_of_length_eq_zero (by omega)) unitSys (.user 0) (hu _) t
      (fun s => extrapolationImpl kmax unitSys (.user 0) s t (.user 0) dt >>= fun _ => getNat mStepsInit >>= fun c => setNat mStepsInit (c + 1))
    simp only [decide_eq_true_eq] at key
    rw [show unitSys (W := W) (h.state (.user 0)) t h.world = .ok 1 h.world from rfl] at key
    obtain ⟨h₁, k1, st⟩ := key
    obtain ⟨h₂, a1, a2, a3, a4⟩ := H (bufData (bufIndex N (h₁.nat mFirst) 0)) (by simp [bufData, Loc.ownedBy]) (by simp [bufData]) h₁ t dt
      (st.slots 0 1 (by simp))
    have same : ∀ i, h₁.SameAt h₂ (.priv .multi i) := fun i => a4 _ (by simp [Loc.ownedBy]) (by simp)
    have hnat : ∀ i, h₂.nat (.priv .multi i) = h₁.nat (.priv .multi i) := fun i => (same i).2.2.2
    refine ⟨h₂.putNat mStepsInit (h₂.nat mStepsInit + 1), ?_, ?_, ?_, ⟨?_, ?_, ?_⟩, ?_⟩
    · unfold abStep
      simp only [Bool.false_eq_true, if_false]
      rw [M.bind_ok (show getNat mStepsInit h = .ok (h.nat mStepsInit) h from rfl), if_pos hlt']
      refine Eq.trans k1 ?_
      rw [M.bind_ok a1]; rfl
    · simpa using a2.trans st.world
    · rw [Heap.putNat_state, a3, (st.frame (.user 0) (hu _)).1]
    · rw [Heap.putNat_nat, if_neg (by simp [mFirst, mStepsInit])]
      exact (hnat 0).symm ▸ st.first
    · rw [Heap.putNat_nat, if_pos rfl, show h₂.nat mStepsInit = h.nat mStepsInit from (hnat 1).trans st.count]
      simp only [List.length_take, List.length_cons]
      omega
    · intro i v hv
      rw [Heap.putNat_nat, if_neg (by simp [mFirst, mStepsInit]), Heap.putNat_state, show h₂.nat mFirst = h₁.nat mFirst from hnat 0]
      rw [show h₂.state (bufData (bufIndex N (h₁.nat mFirst) i)) = h₁.state (bufData (bufIndex N (h₁.nat mFirst) i)) from (same _).1]
      exact st.slots i v (take_getElem hv)
    · intro l hl hne
      refine (st.frame l (not_owned_sub hl (by simp))).trans (Heap.SameAt.trans ?_ (Heap.SameAt.putNat _ (ne_priv hl (by simp) _)))
      exact a4 l (not_owned_sub hl (by simp)) hne
  · rw [if_neg hlt]
    have := abStep_value N coef (.extrapolation kmax) hk unitSys (.user 0) (.user 0) t dt h past hm (hu _) (hu _) fun h' => absurd h' hlt
    unfold abValue at this
    simp only [if_neg hlt] at this
    exact this

/-- The states of an Adams method for `x' = d( t )` with the solution `F`: the first `N-1` steps have the error `e`, the others are exact. -/
theorem adamsOrbit_time {N : ℕ} (hN : 1 ≤ N) {d F : ℝ → ℝ} {dt e : ℝ} {Φ : ℝ → ℝ → ℝ → ℝ} {g : ℝ → List ℝ → ℝ → ℝ → ℝ}
    (hΦ : ∀ x t, Φ x t dt = x + (F (t + dt) - F t) + e)
    (hg : ∀ x t, g x ((List.range N).map fun j : ℕ => d (t - j * dt)) t dt = x + (F (t + dt) - F t)) (t0 x0 : ℝ) (k : ℕ) :
    (adamsOrbit N (fun _ t => d t) Φ g t0 dt x0 k).1 = x0 + (F (t0 + k * dt) - F t0) + (min k (N - 1) : ℕ) * e := by
  induction k with
  | zero => simp [adamsOrbit]
  | succ k ih =>
    have hpast := adamsOrbit_past N (fun _ t => d t) Φ g t0 dt x0 k
    have htt : t0 + ((k + 1 : ℕ) : ℝ) * dt = t0 + k * dt + dt := by push_cast; ring
    rw [adamsOrbit]
    dsimp only
    by_cases hlt : k + 1 < N
    · rw [if_pos (by rw [hpast, pastOf_length]; omega), hΦ, ih, htt, show min (k + 1) (N - 1) = min k (N - 1) + 1 by omega]
      push_cast
      ring
    · rw [if_neg (by rw [hpast, pastOf_length]; omega), hpast]
      have hcons := cons_pastOf_full N (by omega) (fun _ t => d t) (fun i => (adamsOrbit N (fun _ t => d t) Φ g t0 dt x0 i).1)
        (fun i => t0 + (i : ℝ) * dt) k (by omega)
      have hl : lastDerivs N (fun _ t => d t) (fun i => (adamsOrbit N (fun _ t => d t) Φ g t0 dt x0 i).1) (fun i => t0 + (i : ℝ) * dt) k =
          (List.range N).map fun j : ℕ => d (t0 + k * dt - j * dt) := by
        unfold lastDerivs
        refine List.map_congr_left fun j hj => ?_
        have : j ≤ k := by have := List.mem_range.1 hj; omega
        dsimp only
        rw [Nat.cast_sub this]
        congr 1
        ring
      rw [hl] at hcons
      rw [hcons, hg, ih, htt, show min (k + 1) (N - 1) = min k (N - 1) by omega]
      ring

/-- A stepper whose result for `n` steps of size `1/n` from `0` to `1` is wrong by a multiple of `n^-r` does not converge with an order `p > r`. -/
theorem not_converges {Q : Type} {st : BasicStepper Q (W × Log ℝ ℝ) ℝ ℝ} {fresh : Q → Prop} {φ : ℝ → ℝ} {q : Q} (hq : fresh q) (w : W) {r p : ℕ}
    (hrp : r < p) {γ : ℝ} (hγ : γ ≠ 0) {m : ℕ}
    (h : ∀ n : ℕ, m ≤ n → 1 ≤ n → ∃ w', ∃ l, integrateNStepsBasic (TimeArith.exact ℝ 0) st recordObserver q (φ 0) 0 (1 / n) n (w, []) =
      .ok (φ 1 + γ * (1 / n) ^ r, 1) (w', l)) : ¬ ConvergesWithOrder p st fresh φ := by
  intro H
  obtain ⟨C, hC⟩ := H 0 1
  obtain ⟨n, hn⟩ := exists_nat_gt (max C 0 / |γ| + m + 1)
  have hγ' : 0 < |γ| := abs_pos.2 hγ
  have h0 : 0 ≤ max C 0 / |γ| := by positivity
  have hn1 : (1 : ℝ) < n := by
    have : (0 : ℝ) ≤ m := Nat.cast_nonneg _
    linarith
  have hn0 : (0 : ℝ) < n := by linarith
  have hdt : |1 / (n : ℝ)| = 1 / n := abs_of_pos (by positivity)
  have hle : 1 / (n : ℝ) ≤ 1 := by rw [div_le_one hn0]; exact hn1.le
  obtain ⟨w', l, e⟩ := h n (by
    have : (m : ℝ) < n := by linarith
    exact_mod_cast this.le) (by exact_mod_cast hn1.le)
  obtain ⟨x, w2, l2, e2, -, -, hx⟩ := (hC 0 0 1 (1 / n) (φ 0) q w [] hq le_rfl zero_le_one (by simp) (by simp) (by positivity)
    (by rw [hdt]; exact hle)).1 n (by field_simp; simp)
  rw [e] at e2
  injection e2 with e3
  injection e3 with e4
  rw [← e4, hdt, sub_self, norm_zero, zero_add, add_sub_cancel_left, Real.norm_eq_abs, abs_mul, abs_of_pos (show (0 : ℝ) < (1 / n) ^ r by positivity)] at hx
  have hpow : (1 / (n : ℝ)) ^ p ≤ (1 / n) ^ r * (1 / n) := by
    rw [← pow_succ]
    exact pow_le_pow_of_le_one (by positivity) hle hrp
  have h1 : |γ| * (1 / (n : ℝ)) ^ r ≤ max C 0 * ((1 / n) ^ r * (1 / n)) :=
    hx.trans ((mul_le_mul_of_nonneg_right (le_max_left C 0) (by positivity)).trans (mul_le_mul_of_nonneg_left hpow (le_max_right _ _)))
  have hp : (0 : ℝ) < (1 / n) ^ r := by positivity
  have h2 : |γ| ≤ max C 0 * (1 / n) := by
    refine le_of_mul_le_mul_right ?_ hp
    linarith
  have h3 : n * |γ| ≤ max C 0 := by
    have := mul_le_mul_of_nonneg_left h2 hn0.le
    rwa [show (n : ℝ) * (max C 0 * (1 / n)) = max C 0 by field_simp] at this
  have h4 : (n : ℝ) ≤ max C 0 / |γ| := by rwa [le_div_iff₀ hγ']
  have : (0 : ℝ) ≤ m := Nat.cast_nonneg _
  linarith

theorem abFormula_one {N : ℕ} (h1 : 1 ≤ N) (h8 : N ≤ 8) (x t dt : ℝ) :
    abFormula (abCoef N) x dt ((List.range N).map fun j : ℕ => (fun _ => 1 : ℝ → ℝ) (t - j * dt)) = x + (t + dt - t) := by
  have h := adams_bashforth_exact N h1 h8 (fun m => if m = 1 then (1 : ℝ) else 0) x t dt
  have e1 : ∀ s : ℝ, poly (fun m => if m = 1 then (1 : ℝ) else 0) (abOrder N) s = s := fun s => by
    have : 1 < abOrder N + 1 := by unfold abOrder; omega
    simp [poly, Finset.sum_ite_eq', this]
  have e2 : ∀ s : ℝ, polyDeriv (fun m => if m = 1 then (1 : ℝ) else 0) (abOrder N) s = 1 := fun s => by
    have : 1 < abOrder N + 1 := by unfold abOrder; omega
    simp [polyDeriv, Finset.sum_ite_eq', this]
  simpa only [e1, e2] using h

/-- **C69 fails for `adams_bashforth` with its default initialising stepper**: `integrate_n_steps` of `x' = 1` with a new stepper makes an error of
`min( n , N-1 ) ( c-1 ) dt` with `c ≥ 2`, whatever the number of steps is. -/
theorem adams_bashforth_default_error {N : ℕ} (h1 : 1 ≤ N) (h8 : N ≤ 8) (resized : Heap ℝ ℝ W → Bool)
    (hres : ∀ h, resized h = true → h.nat mStepsInit = 0) :
    ∃ c : ℝ, 2 ≤ c ∧ ∀ (eps t0 dt x0 : ℝ) (n : ℕ) (q : Heap ℝ ℝ W) (w : W) (l : Log ℝ ℝ), AdamsFresh N q →
      ∃ w' l', integrateNStepsBasic (TimeArith.exact ℝ eps)
          (stepperObject fun l t dt h => abStep N (abCoef N) (abDefaultInit ℝ N) unitSys (resized h) l t l dt h) recordObserver q x0 t0 dt n (w, l) =
        .ok (x0 + n * dt + (min n (N - 1) : ℕ) * ((c - 1) * dt), t0 + n * dt) (w', l') := by
  obtain ⟨kmax, hk1, hk2, he⟩ := abDefaultInit_eq h8
  obtain ⟨c, hc, H⟩ := abStep_unit (W := W) N (abCoef N) kmax hk2
  refine ⟨c, by
    have : (1 : ℝ) ≤ kmax := by exact_mod_cast hk1
    linarith, fun eps t0 dt x0 n q w l hq => ?_⟩
  set f : ℝ → ℝ → ℝ := fun _ _ => 1
  set Φ : ℝ → ℝ → ℝ → ℝ := fun x _ dt => x + c * dt
  set g : ℝ → List ℝ → ℝ → ℝ → ℝ := fun x ks _ dt => abFormula (abCoef N) x dt ks
  set Z := adamsOrbit N f Φ g t0 dt x0 with hZ
  have hval := fun k => adamsOrbit_time (N := N) h1 (d := fun _ => 1) (F := fun t => t) (dt := dt) (e := (c - 1) * dt) (Φ := Φ) (g := g)
    (fun x t => by simp only [Φ]; ring) (fun x t => abFormula_one h1 h8 x t dt) t0 x0 k
  have hfol : Follows (stepperObject fun l t dt h => abStep N (abCoef N) (abDefaultInit ℝ N) (unitSys (W := W)) (resized h) l t l dt h) t0 dt
      (fun k => (Z k).1) (fun k q => AdamsMemory N q (Z k).2) := by
    intro k q w l hk
    obtain ⟨q', w', e, hm⟩ := adams_step_object (f := f) (Φ := Φ) (g := g) (os := abOwners)
      (step := fun l t dt h => abStep N (abCoef N) (abDefaultInit ℝ N) (unitSys (W := W)) (resized h) l t l dt h)
      (value := fun past x t dt w => .ok (if past.length + 1 < N then Φ x t dt else g x (f x t :: past) t dt, (f x t :: past).take (N - 1)) w)
      (fun h past t dt hm => by
        rw [he]
        cases hr : resized h with
        | false => exact H h past t dt hm
        | true =>
          obtain rfl := past_nil_of_count hm (hres h hr)
          rw [abStep_resized]
          exact (H (h.putNat mStepsInit 0) [] t dt (memory_reset hm.1)).of_putNat (by simp))
      (fun past x t dt w => ⟨w, rfl⟩) q _ hk (Z k).1 (t0 + k * dt) dt w l
    exact ⟨q', w', e, hm⟩
  obtain ⟨w', e⟩ := follow_nSteps hfol eps n q w l hq.memory
  have : (Z n).1 = x0 + n * dt + (min n (N - 1) : ℕ) * ((c - 1) * dt) := (hval n).trans (by ring)
  rw [this] at e
  exact ⟨w', _, e⟩

theorem adams_bashforth_default_not_second_order {N : ℕ} (h2 : 2 ≤ N) (h8 : N ≤ 8) (resized : Heap ℝ ℝ W → Bool)
    (hres : ∀ h, resized h = true → h.nat mStepsInit = 0) {p : ℕ} (hp : 2 ≤ p) (w : W) :
    ¬ ConvergesWithOrder p (stepperObject fun l t dt h => abStep N (abCoef N) (abDefaultInit ℝ N) (unitSys (W := W)) (resized h) l t l dt h)
      (AdamsFresh N) (fun t => t) := by
  obtain ⟨c, hc, H⟩ := adams_bashforth_default_error (W := W) (by omega : 1 ≤ N) h8 resized hres
  refine not_converges (q := ⟨fun _ => 0, fun _ => 0, fun _ => false, fun _ => 0, w⟩) ⟨by show 0 < N; omega, rfl⟩ w (show 1 < p by omega)
    (γ := ((N - 1 : ℕ) : ℝ) * (c - 1)) ?_ (m := N - 1) fun n hn h1 => ?_
  · have : (0 : ℝ) < (N - 1 : ℕ) := by exact_mod_cast (by omega : 0 < N - 1)
    have : (0 : ℝ) < c - 1 := by linarith
    positivity
  · obtain ⟨w', l', e⟩ := H 0 0 (1 / n) 0 n ⟨fun _ => 0, fun _ => 0, fun _ => false, fun _ => 0, w⟩ w [] ⟨by show 0 < N; omega, rfl⟩
    refine ⟨w', l', e.trans ?_⟩
    have hn0 : (n : ℝ) ≠ 0 := by positivity
    rw [min_eq_right hn]
    congr 2
    · field_simp
      ring
    · field_simp
      ring

/-! ## `adams_bashforth_moulton` -/

/-- `x' = 5 t^4` -/
def quinticSys : Sys ℝ ℝ W := fun _ t => pure (5 * t ^ 4)

theorem rk4_quintic (x t dt : ℝ) :
    rk4Tableau.result x dt (rk4Tableau.stageFn (fun _ t => 5 * t ^ 4 : ℝ → ℝ → ℝ) x t dt) = x + ((t + dt) ^ 5 - t ^ 5) + dt ^ 5 / 24 := by
  have h : ∀ i, rk4Tableau.stageFn (fun _ t => 5 * t ^ 4 : ℝ → ℝ → ℝ) x t dt i = 5 * rk4Tableau.stageTime t dt i ^ 4 := fun i => by
    rw [Tableau.stageFn]
  simp only [Tableau.result, show (rk4Tableau : Tableau ℝ).size = 4 from rfl, Finset.sum_range_succ, Finset.sum_range_zero, h]
  simp [rk4Tableau, Tableau.bi, Tableau.stageTime, Tableau.ci, lit, frac]
  ring

theorem amFormula_quintic {N : ℕ} (h5 : 5 ≤ N) (h8 : N ≤ 8) (x t dt : ℝ) :
    abFormula (amCoef N) x dt (5 * (t + dt) ^ 4 :: (List.range N).map fun j : ℕ => (fun s => 5 * s ^ 4 : ℝ → ℝ) (t - j * dt)) =
      x + ((t + dt) ^ 5 - t ^ 5) := by
  have h := adams_moulton_exact_partial N (by omega) h8 (fun m => if m = 5 then (1 : ℝ) else 0) x t dt
  have h5' : 5 < N + 1 := by omega
  have e1 : ∀ s : ℝ, poly (fun m => if m = 5 then (1 : ℝ) else 0) N s = s ^ 5 := fun s => by
    simp [poly, Finset.sum_ite_eq', h5']
  have e2 : ∀ s : ℝ, polyDeriv (fun m => if m = 5 then (1 : ℝ) else 0) N s = 5 * s ^ 4 := fun s => by
    simp [polyDeriv, Finset.sum_ite_eq', h5']
  simp only [e1, e2] at h
  rw [← h, ← abFormula_take (amCoef N) x dt (_ :: _) N (amCoef_length N (by omega) h8).le]
  congr 1
  obtain ⟨n, rfl⟩ : ∃ n, N = n + 1 := ⟨N - 1, by omega⟩
  rw [List.take_succ_cons, ← List.map_take, List.take_range, min_eq_left (by omega), List.range_succ_eq_map (n := n), List.map_cons, List.map_map]
  congr 1
  · simp
  · refine List.map_congr_left fun j _ => ?_
    simp only [Function.comp_apply]
    push_cast
    ring

/-- **C69 fails for `adams_bashforth_moulton<N>`, `N ≥ 6`, with its default initialising stepper `runge_kutta4`**: `integrate_n_steps` of `x' = 5 t^4`
makes an error of `min( n , N-1 ) dt^5 / 24`. -/
theorem adams_bashforth_moulton_default_error {N : ℕ} (h5 : 5 ≤ N) (h8 : N ≤ 8) (resized : Heap ℝ ℝ W → Bool)
    (hres : ∀ h, resized h = true → h.nat mStepsInit = 0) (eps t0 dt x0 : ℝ) (n : ℕ) (q : Heap ℝ ℝ W) (w : W) (l : Log ℝ ℝ)
    (hq : AdamsFresh N q) :
    ∃ w' l', integrateNStepsBasic (TimeArith.exact ℝ eps)
        (stepperObject fun l t dt h => abmStep N (abCoef N) (amCoef N) (abmDefaultInit ℝ) quinticSys (resized h) l t l dt h)
        recordObserver q x0 t0 dt n (w, l) =
      .ok (x0 + ((t0 + n * dt) ^ 5 - t0 ^ 5) + (min n (N - 1) : ℕ) * (dt ^ 5 / 24), t0 + n * dt) (w', l') := by
  set f : ℝ → ℝ → ℝ := fun _ t => 5 * t ^ 4 with hf
  set Φ : ℝ → ℝ → ℝ → ℝ := fun x t dt => rk4Tableau.result x dt (rk4Tableau.stageFn f x t dt) with hΦ
  set g : ℝ → List ℝ → ℝ → ℝ → ℝ := fun x ks t dt => abFormula (amCoef N) x dt (f (abFormula (abCoef N) x dt ks) (t + dt) :: ks) with hg
  have hs : Evaluates (quinticSys (W := W)) f := fun x t w => ⟨w, rfl⟩
  set Z := adamsOrbit N f Φ g t0 dt x0 with hZ
  have hval := fun k => adamsOrbit_time (N := N) (by omega) (d := fun s => 5 * s ^ 4) (F := fun t => t ^ 5) (dt := dt) (e := dt ^ 5 / 24) (Φ := Φ) (g := g)
    (fun x t => rk4_quintic x t dt) (fun x t => amFormula_quintic h5 h8 x t dt) t0 x0 k
  have hfol : Follows (stepperObject fun l t dt h => abmStep N (abCoef N) (amCoef N) (abmDefaultInit ℝ) (quinticSys (W := W)) (resized h) l t l dt h)
      t0 dt (fun k => (Z k).1) (fun k q => AdamsMemory N q (Z k).2) := by
    intro k q w l hk
    obtain ⟨q', w', e, hm⟩ := adams_step_object (f := f) (Φ := Φ) (g := g) (os := abmOwners)
      (step := fun l t dt h => abmStep N (abCoef N) (amCoef N) (abmDefaultInit ℝ) (quinticSys (W := W)) (resized h) l t l dt h)
      (value := fun past x t dt => abmValue N (abCoef N) (amCoef N) (.explicit .rk4) quinticSys past x t dt)
      (fun h past t dt hm => by
        have hnil : resized h = true → past = [] := fun hr => past_nil_of_count hm (hres h hr)
        have := abmStep_value N (abCoef N) (amCoef N) (amCoef_length (K := ℝ) N (by omega) h8).le (.explicit .rk4) trivial quinticSys (resized h)
          (.user 0) (.user 0) t dt h past hm (user_not_owned _ _) (user_not_owned _ _) (fun hr => by
            rw [hnil hr]
            simp only [List.length_nil]
            omega) fun _ => .inl rfl
        have e : (if resized h then [] else past) = past := by
          split
          · rename_i hr
            exact (hnil hr).symm
          · rfl
        rwa [e] at this)
      (fun past x t dt w => by
        obtain ⟨w1, e1⟩ := hs x t w
        unfold abmValue
        rw [M.bind_ok e1]
        split
        · obtain ⟨w2, e2⟩ := rkStep_value hs rk4Tableau rk4Tableau_wf x t dt w1
          exact ⟨w2, M.bind_ok (m := (InitStepper.explicit (.rk4 : ExplicitStepper ℝ)).recipe quinticSys x (f x t) t dt) e2 _⟩
        · obtain ⟨w2, e2⟩ := hs (abFormula (abCoef N) x dt (f x t :: past)) (t + dt) w1
          refine ⟨w2, ?_⟩
          rw [M.bind_ok e2]
          rfl) q _ hk (Z k).1 (t0 + k * dt) dt w l
    exact ⟨q', w', e, hm⟩
  obtain ⟨w', e⟩ := follow_nSteps hfol eps n q w l hq.memory
  rw [show (Z n).1 = _ from hval n] at e
  exact ⟨w', _, e⟩

theorem adams_bashforth_moulton_default_not_sixth_order {N : ℕ} (h6 : 6 ≤ N) (h8 : N ≤ 8) (resized : Heap ℝ ℝ W → Bool)
    (hres : ∀ h, resized h = true → h.nat mStepsInit = 0) (w : W) :
    ¬ ConvergesWithOrder (abmOrder N) (stepperObject fun l t dt h => abmStep N (abCoef N) (amCoef N) (abmDefaultInit ℝ) (quinticSys (W := W)) (resized h)
      l t l dt h) (AdamsFresh N) (fun t => t ^ 5) := by
  refine not_converges (q := ⟨fun _ => 0, fun _ => 0, fun _ => false, fun _ => 0, w⟩) ⟨by show 0 < N; omega, rfl⟩ w
    (show 5 < abmOrder N by unfold abmOrder; omega) (γ := ((N - 1 : ℕ) : ℝ) / 24) ?_ (m := N - 1) fun n hn h1 => ?_
  · have : (0 : ℝ) < (N - 1 : ℕ) := by exact_mod_cast (by omega : 0 < N - 1)
    positivity
  · obtain ⟨w', l', e⟩ := adams_bashforth_moulton_default_error (by omega : 5 ≤ N) h8 resized hres 0 0 (1 / n) 0 n
      ⟨fun _ => 0, fun _ => 0, fun _ => false, fun _ => 0, w⟩ w [] ⟨by show 0 < N; omega, rfl⟩
    rw [show (0 : ℝ) ^ 5 = 0 by norm_num]
    refine ⟨w', l', e.trans ?_⟩
    have hn0 : (n : ℝ) ≠ 0 := by positivity
    have h2 : (n : ℝ) * (1 / n) = 1 := by field_simp
    rw [min_eq_right hn, h2]
    congr 2
    · norm_num
      ring
    · norm_num

/-- Up to `N = 5` the default is good enough: `adams_bashforth_moulton<N>` converges with its order. -/
theorem adams_bashforth_moulton_default_converges {V : Type} [NormedAddCommGroup V] [NormedSpace ℝ V] [CompleteSpace V] {N : ℕ} (h1 : 1 ≤ N) (h5 : N ≤ 5)
    {sys : Sys ℝ V W} {f : V → ℝ → V} (hs : Evaluates sys f) (hf : GoodRhs f 6) {φ : ℝ → V} (hφ : IsFlowLine f φ) (resized : Heap ℝ V W → Bool)
    (hres : ∀ h, resized h = true → h.nat mStepsInit = 0 ∧ 2 ≤ N) :
    ConvergesWithOrder (abmOrder N) (stepperObject (K := ℝ) fun l t dt h => abmStep N (abCoef N) (amCoef N) (abmDefaultInit ℝ) sys (resized h) l t l dt h)
      (AdamsFresh N) φ := by
  have := adams_bashforth_moulton_converges_partial h1 (by omega) .rk4 trivial (p := 4) rfl hs (n := 6) (by omega) (by norm_num) hf hφ resized hres
  rwa [min_eq_left (by unfold abmOrder; omega)] at this

/-! Instances: `x' = x cos t` with `adams_bashforth<5>` and `adams_bashforth<8>`, started with `runge_kutta4` and with `runge_kutta_fehlberg78`, and
with `adams_bashforth_moulton<5>`. -/

example : ConvergesWithOrder 5 (stepperObject (K := ℝ) fun l t dt h => abStep 5 (abCoef 5) (.explicit .rk4) (countSys fun x t => x * Real.cos t)
    (h.nat mStepsInit == 0) l t l dt h) (AdamsFresh 5) fun t => Real.exp (Real.sin t) :=
  adams_bashforth_converges_partial (by norm_num) (by norm_num) .rk4 trivial (p := 4) rfl waves_evaluates (n := 6) (by norm_num) (by norm_num)
    (waves_good 6) waves_solution _ (by simp)

example : ConvergesWithOrder 8 (stepperObject (K := ℝ) fun l t dt h => abStep 8 (abCoef 8) (.explicit .fehlberg) (countSys fun x t => x * Real.cos t)
    false l t l dt h) (AdamsFresh 8) fun t => Real.exp (Real.sin t) :=
  adams_bashforth_converges_partial (by norm_num) (by norm_num) .fehlberg trivial (p := 8) rfl waves_evaluates (n := 9) (by norm_num) (by norm_num)
    (waves_good 9) waves_solution _ (by simp)

example : ConvergesWithOrder 5 (stepperObject (K := ℝ) fun l t dt h => abmStep 5 (abCoef 5) (amCoef 5) (abmDefaultInit ℝ)
    (countSys fun x t => x * Real.cos t) (h.nat mStepsInit == 0) l t l dt h) (AdamsFresh 5) fun t => Real.exp (Real.sin t) :=
  adams_bashforth_moulton_default_converges (by norm_num) (by norm_num) waves_evaluates (waves_good 6) waves_solution _ (by simp)

/-- a new stepper -/
example : AdamsFresh 5 (⟨fun _ => 0, fun _ => 0, fun _ => false, fun _ => 0, 0⟩ : Heap ℝ ℝ ℕ) := ⟨by norm_num, rfl⟩

end Verif
