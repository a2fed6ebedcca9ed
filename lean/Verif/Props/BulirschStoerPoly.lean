import Verif.Props.BulirschStoerDense
import Verif.Lemmas.BulirschStoerPoly

/-!
# C59, C60: the state and the interpolation after a step of `bulirsch_stoer_dense_out`, in exact arithmetic
-/

namespace Verif
set_option linter.unusedSectionVars false
open Finset
variable {K V W : Type} [Field K] [CharZero K] [AddCommGroup V] [Module K V]

/-- A step that returns, and `calc_state` after it.  `x = s.cur` is the state before, `d` the derivative there; the step has size `dt`, the sweeps
`0 .. k` were made; `calc_state( t )` gives the Taylor polynomial about the centre of the step that is determined by the same sweeps, for every `t`. -/
def BsdDense (P : BsdParams K V) (sys : Sys K V W) (s : BsdState K V W) (r : K × K) (s' : BsdState K V W) : Prop :=
  ∃ d dt w k Ss w', (s.ctl.first = false → d = s.curD) ∧ (s.ctl.first = true → ∃ w0, sys s.cur s.t s.world = .ok d w0) ∧
    r = (s.t, s.t + dt) ∧ s'.t = s.t + dt ∧ s'.tLast = s.t ∧ s'.old = s.cur ∧
    BsdAccepted P sys s.cur d s.t dt w k Ss s'.cur w' ∧ sys s'.cur s'.t w' = .ok s'.curD s'.world ∧
    ∀ t, bsdCalcState t s' = .ok (denseTaylor k dt Ss (2 * ((t - s.t) / dt) - 1)) s'

/-- C59: `do_step` and the `calc_state` calls after it, until the next `do_step` or `initialize`. -/
theorem bulirsch_stoer_dense_values (P : BsdParams K V) {sys : Sys K V W} (hs : sys.Defined) (s : BsdState K V W) (hv : BsdOrder s.ctl)
    (hk : ∀ k, s.kFinal = some k → k ≤ 8) :
    (bsdDoStep P sys s).Sat (fun r s' => BsdDense P sys s r s') (fun e s' => s'.cur = s.cur ∧ (e ≠ .stepAdjustment → s'.t = s.t)) True := by
  refine (bulirsch_stoer_dense_step P hs s hv hk).mono ?_ (fun _ _ h => ⟨h.1.cur, h.2⟩) (fun h => h)
  intro r s' h
  obtain ⟨d, dt, w, k, Ss, w', h1, h2, h3, h4, h5, h6, h7⟩ := h.accepted
  refine ⟨d, dt, w, k, Ss, w', h1, h2, by rw [h.times, h3], h3, h.previous.2, h.previous.1, h5, by rw [h3]; exact h6, ?_⟩
  intro t
  obtain ⟨s1, s2, e, g1, g2, g3, g4, g5, g6, g7⟩ := h7
  have hq0 := sweeps_all (fun _ S => S.p 0 = s.cur ∧ S.q 0 = d) sys s.cur d s.t dt (fun j w S w' h => sweep_q0 _ _ _ _ _ _ _ _ _ h) k Ss w w' h5.2.2.1
  have hk8 := h5.2.1
  obtain ⟨e', s3, p1, p2, p3, p4⟩ := bsdPrepare_value P k (by omega) Ss s1 g1 (fun j hj => ⟨g2 j hj, by rw [g3, (hq0 j hj).2]⟩)
  rw [g5] at p1
  cases p1
  rw [bsdCalcState_value t k (by omega) s' h4, h3, h.previous.2, g6, g7, p3]
  congr 1
  unfold denseTaylor
  rw [add_sub_cancel_left]
  congr 1
  refine sum_congr rfl fun κ hκ => ?_
  rw [p4 κ (by simpa using hκ), denseCoefficient, smul_smul, g4]
  congr 1
  rw [mul_div_assoc, mul_pow]
  ring

/-- the sweeps of a right-hand side `f`: leap-frog with `m` intervals of length `h = dt / m`, from `x` with derivative `d` -/
structure IsLeapFrog (f : V → K → V) (m : ℕ) (x d : V) (t h : K) (S : Sweep V) : Prop where
  start : S.p 0 = x ∧ S.q 0 = d
  euler : S.p 1 = x + h • d
  step : ∀ i, 1 ≤ i → i < m → S.p (i + 1) = S.p (i - 1) + (2 * h) • S.q i
  deriv : ∀ i, 1 ≤ i → i ≤ m → S.q i = f (S.p i) (t + i * h)

theorem sweepLoop_leapFrog {sys : Sys K V W} {f : V → K → V} (hf : Returns sys f) (h t : K) : ∀ (n i : ℕ) (S S' : Sweep V) (w w' : W), 1 ≤ i →
    sweepLoop sys h n i (t + i * h) S w = .ok S' w' → (∀ j, j ≤ i → S'.p j = S.p j ∧ S'.q j = S.q j) ∧
      ∀ j, i ≤ j → j < i + n → S'.p (j + 1) = S'.p (j - 1) + (2 * h) • S'.q j ∧ S'.q (j + 1) = f (S'.p (j + 1)) (t + (j + 1 : ℕ) * h) := by
  intro n
  induction n with
  | zero =>
    intro i S S' w w' _ e
    cases e
    exact ⟨fun _ _ => ⟨rfl, rfl⟩, fun j h1 h2 => by omega⟩
  | succ n ih =>
    intro i S S' w w' hi e
    refine ⟨sweepLoop_low sys h _ i _ S S' w w' e, ?_⟩
    rw [sweepLoop, M.bind_apply] at e
    cases hs : sys (lin [((lit 1 : K), S.p (i - 1)), (lit 2 * h, S.q i)]) (t + i * h + h) w with
    | ok d w1 =>
      rw [hs] at e
      have ht : t + (i : K) * h + h = t + ((i + 1 : ℕ) : K) * h := by push_cast; ring
      rw [ht] at e hs
      obtain ⟨h1, h2⟩ := ih (i + 1) _ _ _ _ (by omega) e
      have hd := hf _ _ _ _ _ hs
      intro j hj1 hj2
      by_cases hji : j = i
      · subst hji
        have a1 := h1 (j + 1) le_rfl
        have a2 := h1 j (by omega)
        have a3 := h1 (j - 1) (by omega)
        dsimp only at a1 a2 a3
        rw [Function.update_self, Function.update_self] at a1
        rw [Function.update_of_ne (by omega), Function.update_of_ne (by omega)] at a2 a3
        rw [a1.1, a1.2, a2.2, a3.1, hd]
        refine ⟨?_, rfl⟩
        rw [lin_exact]
        simp [lit]
      · exact h2 j (by omega) (by omega)
    | err _ _ => rw [hs] at e; cases e
    | ub => rw [hs] at e; cases e
    | div => rw [hs] at e; cases e

/-- the sweeps of an accepted step are leap-frog sweeps of the right-hand side -/
theorem sweeps_leapFrog {sys : Sys K V W} {f : V → K → V} (hf : Returns sys f) (x d : V) (t dt : K) (k : ℕ) (Ss : ℕ → Sweep V) (w w' : W)
    (h : sweeps k sys x d t dt w = .ok Ss w') (j : ℕ) (hj : j ≤ k) :
    IsLeapFrog f (2 + 4 * j) x d t (dt / (2 + 4 * j : ℕ)) (Ss j) := by
  refine sweeps_all (fun j S => IsLeapFrog f (2 + 4 * j) x d t (dt / (2 + 4 * j : ℕ)) S) sys x d t dt ?_ k Ss w w' h j hj
  intro i w S w' h
  have hq := sweep_q0 _ _ _ _ _ _ _ _ _ h
  unfold sweep at h
  rw [M.bind_apply] at h
  have hl : (lit ((2 + 4 * i : ℕ) : ℤ) : K) = ((2 + 4 * i : ℕ) : K) := by simp [lit]
  rw [hl] at h
  generalize dt / ((2 + 4 * i : ℕ) : K) = hh at h ⊢
  cases hs : sys (lin [((lit 1 : K), x), (hh, d)]) (t + hh) w with
  | ok d1 w1 =>
    rw [hs] at h
    have ht : t + hh = t + ((1 : ℕ) : K) * hh := by simp
    have h' : sweepLoop sys hh (2 + 4 * i - 1) 1 (t + hh)
      ⟨fun i => if i = 0 then x else lin [((lit 1 : K), x), (hh, d)], fun i => if i = 0 then d else d1⟩ w1 = .ok S w' := h
    rw [ht] at h'
    obtain ⟨a1, a2⟩ := sweepLoop_leapFrog hf hh t _ 1 _ _ _ _ le_rfl h'
    have b1 := a1 1 le_rfl
    have hx : (lin [((lit 1 : K), x), (hh, d)] : V) = x + hh • d := by rw [lin_exact]; simp [lit]
    refine ⟨hq, by rw [b1.1]; exact hx, fun j hj1 hj2 => (a2 j hj1 (by omega)).1, fun j hj1 hj2 => ?_⟩
    by_cases hj : j = 1
    · subst hj
      rw [b1.2, b1.1]
      have := hf _ _ _ _ _ hs
      show d1 = f (lin [((lit 1 : K), x), (hh, d)]) _
      rw [this, ht]
    · obtain ⟨n, rfl⟩ : ∃ n, j = n + 1 := ⟨j - 1, by omega⟩
      exact (a2 n (by omega) (by omega)).2
  | err _ _ => rw [hs] at h; cases h
  | ub => rw [hs] at h; cases h
  | div => rw [hs] at h; cases h

end Verif

namespace Verif
set_option linter.unusedSectionVars false
open Finset
variable {K V W : Type} [Field K] [CharZero K] [AddCommGroup V] [Module K V]

theorem IsLeapFrog.gragg {f : V → K → V} {m : ℕ} {x d : V} {t h : K} {S : Sweep V} (H : IsLeapFrog f m x d t h S) : ∀ n i, 1 ≤ i → i + n ≤ m →
    Verif.gragg f h n (t + i * h) (S.p (i - 1)) (S.p i) = (S.p (i - 1 + n), S.p (i + n)) := by
  intro n
  induction n with
  | zero => intro i _ _; rfl
  | succ n ih =>
    intro i hi hn
    rw [Verif.gragg, ← H.deriv i hi (by omega), ← H.step i hi (by omega), show t + (i : K) * h + h = t + ((i + 1 : ℕ) : K) * h by push_cast; ring]
    have := ih (i + 1) (by omega) (by omega)
    rw [Nat.add_sub_cancel] at this
    rw [this]
    congr 2 <;> omega

/-- the smoothed value at the end of a sweep is that of Gragg's scheme -/
theorem IsLeapFrog.result {f : V → K → V} {m : ℕ} (hm : 1 ≤ m) {x : V} {t dt : K} {S : Sweep V} (H : IsLeapFrog f m x (f x t) t (dt / m) S) :
    S.result m (dt / lit m) = graggValue f m x t dt := by
  have hl : (lit (m : ℤ) : K) = (m : K) := by simp [lit]
  have g := H.gragg (m - 1) 1 le_rfl (by omega)
  unfold graggValue Sweep.result
  rw [hl]
  dsimp only
  rw [← H.euler, show x = S.p 0 from H.start.1.symm, show t + dt / m = t + ((1 : ℕ) : K) * (dt / m) by push_cast; ring]
  rw [show (1 : ℕ) - 1 = 0 from rfl] at g
  rw [g, show 0 + (m - 1) = m - 1 by omega, show 1 + (m - 1) = m by omega]
  dsimp only
  rw [← H.deriv m hm le_rfl, lin_exact]
  simp only [frac, lit, List.map_cons, List.map_nil, List.sum_cons, List.sum_nil]
  push_cast
  module

/-- the result of the sweeps of a right-hand side is the extrapolation of Gragg's scheme with 2, 6, 10, ... intervals -/
theorem denseStep_value {sys : Sys K V W} {f : V → K → V} (hf : Returns sys f) (x : V) (t dt : K) (k : ℕ) (Ss : ℕ → Sweep V) (w w' : W)
    (h : sweeps k sys x (f x t) t dt w = .ok Ss w') :
    (denseStep k dt Ss).1 = neville (denseWeight (K := K)) (fun j => graggValue f (2 + 4 * j) x t dt) k k := by
  unfold denseStep
  refine neville_congr' _ _ _ k k (fun j hj => ?_)
  have := sweeps_leapFrog hf x _ t dt k Ss w w' h j hj
  exact this.result (by omega)

/-- the members belong to the right-hand side `f`: the stored derivative is the one at the current state -/
def BsdFresh (f : V → K → V) (s : BsdState K V W) : Prop := s.ctl.first = false → s.curD = f s.cur s.t

/-- C59: for a system function that returns `f`, every call of `do_step` advances the state by the extrapolation of Gragg's scheme with 2, 6, 10, ... intervals,
from the state and the time before, and the stored derivative stays the one at the current state; the interpolation has the properties of `BsdDense`. -/
theorem bulirsch_stoer_dense_do_step (P : BsdParams K V) {sys : Sys K V W} (hs : sys.Defined) {f : V → K → V} (hf : Returns sys f) (s : BsdState K V W)
    (hv : BsdOrder s.ctl) (hk : ∀ k, s.kFinal = some k → k ≤ 8) (hfresh : BsdFresh f s) :
    (bsdDoStep P sys s).Sat (fun r s' => BsdFresh f s' ∧ ∃ dt k Ss, 1 ≤ k ∧ k ≤ 8 ∧ r = (s.t, s.t + dt) ∧ s'.t = s.t + dt ∧ s'.old = s.cur ∧
        s'.cur = neville (denseWeight (K := K)) (fun j => graggValue f (2 + 4 * j) s.cur s.t dt) k k ∧
        (∀ j, j ≤ k → IsLeapFrog f (2 + 4 * j) s.cur (f s.cur s.t) s.t (dt / (2 + 4 * j : ℕ)) (Ss j)) ∧
        ∀ t, bsdCalcState t s' = .ok (denseTaylor k dt Ss (2 * ((t - s.t) / dt) - 1)) s')
      (fun e s' => s'.cur = s.cur ∧ (e ≠ .stepAdjustment → s'.t = s.t)) True := by
  refine (bulirsch_stoer_dense_values P hs s hv hk).mono ?_ (fun _ _ h => h) (fun h => h)
  rintro r s' ⟨d, dt, w, k, Ss, w', h1, h2, h3, h4, h5, h6, h7, h8, h9⟩
  have hd : d = f s.cur s.t := by
    cases hfirst : s.ctl.first with
    | true =>
      obtain ⟨w0, h⟩ := h2 hfirst
      exact hf _ _ _ _ _ h
    | false => rw [h1 hfirst]; exact hfresh hfirst
  subst hd
  refine ⟨fun _ => hf _ _ _ _ _ h8, dt, k, Ss, h7.1, h7.2.1, h3, h4, h6, ?_, fun j hj => sweeps_leapFrog hf _ _ _ _ k Ss _ _ h7.2.2.1 j hj, h9⟩
  rw [h7.2.2.2.1]
  exact denseStep_value hf _ _ _ _ _ _ _ h7.2.2.1

end Verif

namespace Verif
set_option linter.unusedSectionVars false
open Finset
variable {K V W : Type} [Field K] [CharZero K] [AddCommGroup V] [Module K V]

theorem neville_const (c : ℕ → ℕ → K) (v : V) : ∀ d k, neville c (fun _ => v) d k = v := by
  intro d
  induction d with
  | zero => intro k; rfl
  | succ d ih =>
    intro k
    rw [neville, ih, ih, lin_pair]
    simp only [lit]
    push_cast
    module

theorem IsLeapFrog.constant {v : V} {m : ℕ} {x : V} {t h : K} {S : Sweep V} (H : IsLeapFrog (fun _ _ => v) m x v t h S) :
    (∀ i, i ≤ m → S.q i = v) ∧ ∀ i, i ≤ m → S.p i = x + (i * h) • v := by
  have hq : ∀ i, i ≤ m → S.q i = v := by
    intro i hi
    rcases Nat.eq_zero_or_pos i with rfl | h0
    · exact H.start.2
    · exact H.deriv i h0 hi
  refine ⟨hq, ?_⟩
  intro i
  induction i using Nat.strong_induction_on with
  | _ i ih =>
    intro hi
    match i with
    | 0 => rw [H.start.1]; simp
    | 1 => rw [H.euler]; simp
    | i + 2 =>
      rw [H.step (i + 1) (by omega) (by omega), hq _ (by omega), show i + 1 - 1 = i by omega, ih i (by omega) (by omega)]
      push_cast
      module

/-- for constant derivatives the interpolation is the straight line -/
theorem denseTaylor_constant {v : V} {x : V} {t dt : K} (k : ℕ) (Ss : ℕ → Sweep V)
    (H : ∀ j, j ≤ k → IsLeapFrog (fun _ _ => v) (2 + 4 * j) x v t (dt / (2 + 4 * j : ℕ)) (Ss j)) (θ : K) :
    denseTaylor k dt Ss θ = x + (dt / 2 + θ * dt / 2) • v := by
  have hc : centreState K k Ss = x + (dt / 2) • v := by
    unfold centreState
    rw [neville_congr' _ _ (fun _ => x + (dt / 2) • v) k k, neville_const]
    intro j hj
    rw [(H j hj).constant.2 _ (by omega)]
    congr 2
    have h1 : ((2 * j + 1 : ℕ) : K) ≠ 0 := by exact_mod_cast (by omega : 2 * j + 1 ≠ 0)
    rw [show 2 + 4 * j = 2 * (2 * j + 1) by ring, Nat.cast_mul]
    generalize ((2 * j + 1 : ℕ) : K) = n at h1 ⊢
    push_cast
    field_simp
  have hd : ∀ κ, κ < 2 * k + 2 → centreDerivative k dt Ss κ = if κ = 0 then v else 0 := by
    intro κ hκ
    unfold centreDerivative
    rw [neville_congr' _ _ (fun _ => if κ = 0 then v else 0) _ _, neville_const]
    intro j hj
    have hjk : j + κ / 2 ≤ k := by omega
    unfold centralDerivative centralDiff
    have e : ∀ c ∈ range (κ + 1), ((-1 : K) ^ c * (Nat.choose κ c : K)) • (Ss (j + κ / 2)).q (2 * (j + κ / 2) + 1 + κ - 2 * c) =
        ((-1 : K) ^ c * (Nat.choose κ c : K)) • v := by
      intro c hc
      rw [(H _ hjk).constant.1 _ (by omega)]
    rw [sum_congr rfl e, ← sum_smul]
    have h1 : (∑ c ∈ range (κ + 1), (-1 : K) ^ c * (Nat.choose κ c : K)) = if κ = 0 then 1 else 0 := by
      have := Int.alternating_sum_range_choose (n := κ)
      have h2 : ((∑ m ∈ range (κ + 1), ((-1 : ℤ) ^ m * (κ.choose m : ℤ)) : ℤ) : K) = ((if κ = 0 then 1 else 0 : ℤ) : K) := by rw [this]
      push_cast at h2
      rw [h2]
    rw [h1]
    by_cases h0 : κ = 0
    · subst h0; simp
    · simp [h0]
  unfold denseTaylor
  rw [hc, sum_eq_single 0]
  · rw [hd 0 (by omega), if_pos rfl]
    simp only [zero_add, pow_one, Nat.factorial_one, Nat.cast_one, div_one]
    module
  · intro κ hκ h0
    rw [hd κ (by simpa using hκ), if_neg h0, smul_zero]
  · intro h; exact absurd (mem_range.mpr (by omega)) h

/-- C60 (partial: constant right-hand sides): `calc_state` is the straight line through the states at the ends of the step.  For general right-hand sides it misses
the states at the ends, see `bsd_interpolation_differs_at_ends`. -/
theorem bsd_interpolation_ends_partial (P : BsdParams K V) {sys : Sys K V W} (hs : sys.Defined) {v : V} (hf : Returns sys (fun _ _ => v)) (s : BsdState K V W)
    (hv : BsdOrder s.ctl) (hk : ∀ k, s.kFinal = some k → k ≤ 8) (hfresh : BsdFresh (fun _ _ => v) s) :
    (bsdDoStep P sys s).Sat (fun r s' => r.1 ≠ r.2 → bsdCalcState r.1 s' = .ok s.cur s' ∧ bsdCalcState r.2 s' = .ok s'.cur s' ∧
        ∀ t, bsdCalcState t s' = .ok (s.cur + (t - r.1) • v) s') (fun _ _ => True) True := by
  refine (bulirsch_stoer_dense_do_step P hs hf s hv hk hfresh).mono ?_ (fun _ _ _ => trivial) (fun h => h)
  rintro r s' ⟨-, dt, k, Ss, h1, h2, rfl, h4, h5, h6, h7, h8⟩ hne
  dsimp only at hne ⊢
  have hdt : dt ≠ 0 := by rintro rfl; simp at hne
  have hall : ∀ t, bsdCalcState t s' = .ok (s.cur + (t - s.t) • v) s' := by
    intro t
    rw [h8, denseTaylor_constant k Ss h7]
    congr 3
    field_simp
    ring
  have hcur : s'.cur = s.cur + dt • v := by
    rw [h6, neville_congr' _ _ (fun _ => s.cur + dt • v) k k, neville_const]
    intro j hj
    have hL := h7 j hj
    rw [← hL.result (by omega)]
    have hc := hL.constant
    unfold Sweep.result
    rw [hc.2 _ (by omega), hc.2 _ le_rfl, hc.1 _ le_rfl, lin_exact]
    have hm : ((2 + 4 * j : ℕ) : K) ≠ 0 := by exact_mod_cast (by omega : 2 + 4 * j ≠ 0)
    have hl : (lit ((2 + 4 * j : ℕ) : ℤ) : K) = ((2 + 4 * j : ℕ) : K) := by simp [lit]
    have hm1 : ((2 + 4 * j - 1 : ℕ) : K) = ((2 + 4 * j : ℕ) : K) - 1 := by rw [Nat.cast_sub (by omega)]; simp
    rw [hl, hm1]
    generalize ((2 + 4 * j : ℕ) : K) = m at hm ⊢
    simp only [frac, lit, List.map_cons, List.map_nil, List.sum_cons, List.sum_nil]
    push_cast
    rw [show (dt : K) = m * (dt / m) by field_simp]
    generalize dt / m = g
    have : m * g / m = g := by field_simp
    rw [this]
    module
  refine ⟨by rw [hall]; simp, by rw [hall, hcur]; simp, hall⟩

end Verif
