import Verif.Spec.BulirschStoerPoly
import Verif.Lemmas.BulirschStoerDenseTry
import Verif.Lemmas.Extrapolation
import Verif.Lemmas.Butcher
import Mathlib.Tactic.FieldSimp
import Mathlib.Tactic.Ring
import Mathlib.Tactic.Module

/-!
# `prepare_dense_output` and `calc_state` in exact arithmetic
-/

namespace Verif
set_option linter.unusedSectionVars false
open Finset
variable {K V W : Type} [Field K] [AddCommGroup V] [Module K V]

theorem lin_one (a : K) (v : V) : (lin [(a, v)] : V) = a • v := by simp [lin_exact]

/-- the derivatives of sweep `j` as they are stored -/
structure SweepStored (s : BsdState K V W) (j : ℕ) (q : ℕ → V) : Prop where
  derivs : ∀ i, i < 2 + 4 * j → s.derivs j i = q (i + 1)
  curD : s.curD = q 0

theorem SweepStored.frame {s s' : BsdState K V W} {j : ℕ} {q : ℕ → V} (h : SweepStored s j q) (hF : PrepFrame s s') : SweepStored s' j q :=
  ⟨fun i hi => by rw [hF.derivs]; exact h.derivs i hi, hF.curD.trans h.curD⟩

theorem bsdDiff_value (j kappa : ℕ) (hj : j < 9) (hk : kappa < 2 * j + 2) (fac : K) (q : ℕ → V) (s : BsdState K V W) (hq : SweepStored s j q) :
    ∃ s', bsdDiff j kappa fac s = .ok () s' ∧ PrepFrame s s' ∧ s'.mp = s.mp ∧
      s'.diffs = Function.update s.diffs kappa (Function.update (s.diffs kappa) (j - kappa / 2) (fac • centralDiff K q (2 * j + 1) kappa)) := by
  have hst : bsdSteps j / 2 - 1 = 2 * j := by unfold bsdSteps; omega
  have hst' : bsdSteps j = 2 + 4 * j := rfl
  unfold bsdDiff
  split
  · rename_i h0
    subst h0
    rw [hst, M.bind_ok (getDeriv_ok j _ (by omega) s), setDiff_ok 0 j _ (by omega) s]
    refine ⟨_, rfl, PrepFrame.setDiffs _ _ _, rfl, ?_⟩
    show Function.update s.diffs 0 (Function.update (s.diffs 0) j _) = _
    rw [lin_one, hq.derivs _ (by omega)]
    simp [centralDiff]
  · rw [hst, M.bind_ok (getDeriv_ok j _ (by omega) s), M.bind_ok (setDiff_ok kappa (j - kappa / 2) _ (by omega) s)]
    obtain ⟨a', s', e, h⟩ := foldN_ok (body := bsdDiffStep (V := V) (W := W) j kappa fac)
      (fun c a s' => a = (-1) ^ c ∧ PrepFrame s s' ∧ s'.mp = s.mp ∧
        s'.diffs = Function.update s.diffs kappa (Function.update (s.diffs kappa) (j - kappa / 2)
          (fac • ∑ c ∈ range c, ((-1 : K) ^ c * (Nat.choose kappa c : K)) • q (2 * j + 1 + kappa - 2 * c)))) kappa 1
      (fun c a s1 hc hc' hs1 => by
        obtain ⟨h1, h2, h3, h4⟩ := hs1
        refine ⟨_, _, bsdDiffStep_ok j kappa hj hk fac c hc a s1, ?_, h2.trans (PrepFrame.setDiffs _ _ _), h3, ?_⟩
        · rw [h1, pow_succ]
          simp [lit]
        · show Function.update s1.diffs kappa (Function.update (s1.diffs kappa) (j - kappa / 2) _) = _
          have hrow : s1.diffs kappa (j - kappa / 2) = fac • ∑ c ∈ range c, ((-1 : K) ^ c * (Nat.choose kappa c : K)) • q (2 * j + 1 + kappa - 2 * c) := by
            rw [h4, Function.update_self, Function.update_self]
          have hrow2 : s1.diffs kappa = Function.update (s.diffs kappa) (j - kappa / 2)
              (fac • ∑ c ∈ range c, ((-1 : K) ^ c * (Nat.choose kappa c : K)) • q (2 * j + 1 + kappa - 2 * c)) := by
            rw [h4, Function.update_self]
          rw [hrow, hrow2, h4, Function.update_idem, Function.update_idem, sum_range_succ, smul_add]
          congr 2
          have hq1 := hq.frame h2
          split
          · rename_i hle
            rw [lin_pair, hq1.derivs _ (by omega), h1, show 2 * j + kappa - 2 * c + 1 = 2 * j + 1 + kappa - 2 * c by omega]
            simp only [lit, Int.cast_one, one_smul, Int.cast_natCast]
            congr 1
            rw [smul_smul]
            congr 1
            ring
          · rename_i hgt
            have hck : c = kappa := by omega
            rw [lin_pair, hq1.curD, h1, show 2 * j + 1 + kappa - 2 * c = 0 by omega, hck, Nat.choose_self]
            simp only [lit, Int.cast_one, one_smul, Nat.cast_one, mul_one]
            congr 1
            rw [smul_smul]
            congr 1
            ring)
      (lit (-1)) (s.setDiffs kappa (Function.update (s.diffs kappa) (j - kappa / 2) (lin [(fac, s.derivs j (2 * j + kappa))])))
      ⟨by simp [lit], PrepFrame.setDiffs _ _ _, rfl, by
        show Function.update s.diffs kappa _ = _
        rw [lin_one, hq.derivs _ (by omega), show 2 * j + kappa + 1 = 2 * j + 1 + kappa by omega]
        simp⟩
    rw [M.bind_ok e]
    refine ⟨s', rfl, h.2.1, h.2.2.1, ?_⟩
    rw [h.2.2.2, show 1 + kappa = kappa + 1 by omega]
    rfl

/-- the row of the difference of order `κ` -/
def diffAt (dt : K) (Ss : ℕ → Sweep V) (κ i : ℕ) : V := centralDerivative dt Ss κ (i + κ / 2)

theorem bsdPrepareRow_value (dt : K) (Ss : ℕ → Sweep V) (j : ℕ) (hj : j < 9) (s : BsdState K V W) (hq : SweepStored s j (Ss j).q) :
    ∃ s', bsdPrepareRow dt j s = .ok () s' ∧ PrepFrame s s' ∧
      s'.mp = bsdExtrapolateDense (K := K) j 0 j s.mp ∧
      (∀ κ i, (κ < 2 * j + 2 ∧ i = j - κ / 2) → s'.diffs κ i = centralDerivative dt Ss κ j) ∧
      (∀ κ i, ¬ (κ < 2 * j + 2 ∧ i = j - κ / 2) → s'.diffs κ i = s.diffs κ i) := by
  unfold bsdPrepareRow
  obtain ⟨a', s', e, h⟩ := foldN_ok (body := bsdDiffNext (V := V) (W := W) (lit (bsdSteps j) / (lit 2 * dt)) j)
    (fun κ0 a s' => a = (((2 + 4 * j : ℕ) : K) / (2 * dt)) ^ κ0 ∧ PrepFrame s s' ∧ s'.mp = s.mp ∧
      (∀ κ i, (κ < κ0 ∧ i = j - κ / 2) → s'.diffs κ i = centralDerivative dt Ss κ j) ∧
      (∀ κ i, ¬ (κ < κ0 ∧ i = j - κ / 2) → s'.diffs κ i = s.diffs κ i))
    (2 * j + 2) 0
    (fun κ0 a s1 _ hi hs1 => by
      obtain ⟨h1, h2, h3, h4, h5⟩ := hs1
      obtain ⟨s2, e2, f2, m2, d2⟩ := bsdDiff_value j κ0 hj (by omega) a (Ss j).q s1 (hq.frame h2)
      refine ⟨a * (lit (bsdSteps j) / (lit 2 * dt)), s2, ?_, ?_, h2.trans f2, m2.trans h3, ?_, ?_⟩
      · unfold bsdDiffNext
        rw [M.bind_ok e2]
        rfl
      · rw [h1, pow_succ]
        simp [lit, bsdSteps]
      · rintro κ i ⟨hκ, rfl⟩
        rw [d2]
        by_cases hκ0 : κ = κ0
        · subst hκ0
          rw [Function.update_self, Function.update_self, h1]
          rfl
        · rw [Function.update_of_ne hκ0]
          exact h4 κ _ ⟨by omega, rfl⟩
      · intro κ i hn
        rw [d2]
        by_cases hκ0 : κ = κ0
        · subst hκ0
          rw [Function.update_self, Function.update_of_ne (by omega)]
          exact h5 κ i (by omega)
        · rw [Function.update_of_ne hκ0]
          exact h5 κ i (by omega))
    (lit 1) s ⟨by simp [lit], PrepFrame.refl s, rfl, fun κ i h => by omega, fun κ i h => rfl⟩
  obtain ⟨-, h2, h3, h4, h5⟩ := h
  rw [M.bind_ok e]
  rw [Nat.zero_add] at h4 h5
  split
  · rw [M.bind_ok (chk_ok hj _)]
    exact ⟨_, rfl, h2.trans (PrepFrame.setMp _ _), by show bsdExtrapolateDense (K := K) j 0 j s'.mp = _; rw [h3], h4, h5⟩
  · rename_i hj0
    obtain rfl : j = 0 := by omega
    exact ⟨_, rfl, h2, h3, h4, h5⟩

theorem bsdPrepareDiff_value (dt : K) (k κ : ℕ) (hk : k < 9) (hkk : κ < 2 * k + 2) (y : ℕ → V) (d : K) (s : BsdState K V W)
    (hy : ∀ i, i ≤ k - κ / 2 → s.diffs κ i = y i) :
    ∃ s', bsdPrepareDiff dt k κ d s = .ok (d * (dt / lit (2 * (κ + 2) : ℕ))) s' ∧ PrepFrame s s' ∧ s'.mp = s.mp ∧
      s'.diffs κ 0 = d • neville (fun a b => denseWeight (K := K) (a + κ / 2) (b + κ / 2)) y (k - κ / 2) (k - κ / 2) ∧
      (∀ κ', κ' ≠ κ → s'.diffs κ' = s.diffs κ') := by
  unfold bsdPrepareDiff
  obtain ⟨s1, e1, h1⟩ := forUp_inv (body := bsdExtrapolateRow (K := K) (V := V) (W := W) κ)
    (fun j s' => PrepFrame s s' ∧ s'.mp = s.mp ∧ (∀ κ', κ' ≠ κ → s'.diffs κ' = s.diffs κ') ∧
      (∀ i, i < j → s'.diffs κ i = neville (fun a b => denseWeight (K := K) (a + κ / 2) (b + κ / 2)) y (j - 1 - i) (j - 1)) ∧
      (∀ i, j ≤ i → i ≤ k - κ / 2 → s'.diffs κ i = y i)) 1 (k - κ / 2 + 1) (by omega)
    (fun j s1 h1 h2 hs1 => by
      obtain ⟨a1, a2, a3, a4, a5⟩ := hs1
      unfold bsdExtrapolateRow
      rw [M.bind_ok (chk_ok (by omega) _)]
      refine ⟨_, rfl, a1.trans (PrepFrame.setDiffs _ _ _), a2, ?_, ?_, ?_⟩
      · intro κ' hκ'
        show Function.update s1.diffs κ _ κ' = _
        rw [Function.update_of_ne hκ']
        exact a3 κ' hκ'
      · intro i hi
        show Function.update s1.diffs κ _ κ i = _
        rw [Function.update_self, show j + 1 - 1 = j by omega]
        refine bsdExtrapolateDense_neville (K := K) j (κ / 2) y j (s1.diffs κ) le_rfl (fun i hi => a4 i hi) ?_ i (by omega)
        intro i hi1 hi2
        obtain rfl : i = j := by omega
        rw [a5 i le_rfl (by omega), Nat.sub_self]
        rfl
      · intro i hi1 hi2
        show Function.update s1.diffs κ _ κ i = _
        rw [Function.update_self, bsdExtrapolateDense_high _ _ _ _ _ (by omega)]
        exact a5 i (by omega) hi2) s
    ⟨PrepFrame.refl s, rfl, fun _ _ => rfl, fun i hi => by
      obtain rfl : i = 0 := by omega
      exact hy 0 (by omega), fun i _ hi => hy i hi⟩
  obtain ⟨a1, a2, a3, a4, a5⟩ := h1
  rw [M.bind_ok e1, M.bind_ok (getDiff_ok κ 0 (by omega) s1), M.bind_ok (setDiff_ok κ 0 _ (by omega) s1)]
  refine ⟨_, rfl, a1.trans (PrepFrame.setDiffs _ _ _), a2, ?_, ?_⟩
  · show Function.update s1.diffs κ _ κ 0 = _
    rw [Function.update_self, Function.update_self, lin_one, a4 0 (by omega)]
    rfl
  · intro κ' hκ'
    show Function.update s1.diffs κ _ κ' = _
    rw [Function.update_of_ne hκ']
    exact a3 κ' hκ'

/-- the coefficient of `θ^(κ+1)` -/
def denseCoefficient (k : ℕ) (dt : K) (Ss : ℕ → Sweep V) (κ : ℕ) : V :=
  ((dt / 2) ^ (κ + 1) / (Nat.factorial (κ + 1) : K)) • centreDerivative k dt Ss κ

theorem bsdPrepare_value [CharZero K] (P : BsdParams K V) (k : ℕ) (hk : k < 9) (Ss : ℕ → Sweep V) (s : BsdState K V W)
    (hmp : ∀ j, j ≤ k → s.mp j = (Ss j).p (2 * j + 1)) (hq : ∀ j, j ≤ k → SweepStored s j (Ss j).q) :
    ∃ e s', bsdPrepare P k s = .ok e s' ∧ PrepFrame s s' ∧ s'.mp 0 = centreState K k Ss ∧
      ∀ κ, κ < 2 * k + 2 → s'.diffs κ 0 = denseCoefficient k s.dt Ss κ := by
  unfold bsdPrepare
  rw [M.bind_ok (m := M.get) (w' := s) (a := s) rfl]
  obtain ⟨s1, e1, h1⟩ := forUp_inv (body := bsdPrepareRow (V := V) (W := W) s.dt)
    (fun j s' => PrepFrame s s' ∧ (∀ i, i < j → s'.mp i = neville (denseWeight (K := K)) (fun j => (Ss j).p (2 * j + 1)) (j - 1 - i) (j - 1)) ∧
      (∀ i, j ≤ i → s'.mp i = s.mp i) ∧
      (∀ κ j', j' < j → κ < 2 * j' + 2 → s'.diffs κ (j' - κ / 2) = centralDerivative s.dt Ss κ j')) 0 (k + 1) (by omega)
    (fun j s1 _ h2 hs1 => by
      obtain ⟨a1, a2, a3, a4⟩ := hs1
      obtain ⟨s2, e2, f2, m2, d2, d3⟩ := bsdPrepareRow_value s.dt Ss j (by omega) s1 ((hq j (by omega)).frame a1)
      refine ⟨s2, e2, a1.trans f2, ?_, ?_, ?_⟩
      · intro i hi
        rw [m2, show j + 1 - 1 = j by omega]
        refine bsdExtrapolateDense_neville (K := K) j 0 (fun j => (Ss j).p (2 * j + 1)) j s1.mp le_rfl (fun i hi => a2 i hi) ?_ i (by omega)
        intro i hi1 hi2
        obtain rfl : i = j := by omega
        rw [a3 i le_rfl, hmp i (by omega), Nat.sub_self]
        rfl
      · intro i hi
        rw [m2, bsdExtrapolateDense_high _ _ _ _ _ (by omega)]
        exact a3 i (by omega)
      · intro κ j' hj' hκ
        by_cases hjj : j' = j
        · subst hjj
          exact d2 κ _ ⟨hκ, rfl⟩
        · rw [d3 κ _ (by omega)]
          exact a4 κ j' (by omega) hκ) s ⟨PrepFrame.refl s, fun i hi => by omega, fun _ _ => rfl, fun _ _ h => by omega⟩
  obtain ⟨a1, a2, a3, a4⟩ := h1
  rw [M.bind_ok e1]
  obtain ⟨b2, s2, e2, h2⟩ := foldN_ok (body := bsdPrepareDiff (V := V) (W := W) s.dt k)
    (fun κ0 a s' => a = (s.dt / 2) ^ (κ0 + 1) / (Nat.factorial (κ0 + 1) : K) ∧ PrepFrame s s' ∧ s'.mp = s1.mp ∧
      (∀ κ, κ < κ0 → s'.diffs κ 0 = denseCoefficient k s.dt Ss κ) ∧ (∀ κ, κ0 ≤ κ → s'.diffs κ = s1.diffs κ)) (2 * k + 2) 0
    (fun κ0 a s3 _ hi hs3 => by
      obtain ⟨c1, c2, c3, c4, c5⟩ := hs3
      obtain ⟨s4, e4, f4, m4, v4, o4⟩ := bsdPrepareDiff_value s.dt k κ0 hk (by omega) (fun i => centralDerivative s.dt Ss κ0 (i + κ0 / 2)) a s3
        (fun i hi => by
          rw [c5 κ0 le_rfl]
          have := a4 κ0 (i + κ0 / 2) (by omega) (by omega)
          rw [show i + κ0 / 2 - κ0 / 2 = i by omega] at this
          exact this)
      refine ⟨_, s4, e4, ?_, c2.trans f4, m4.trans c3, ?_, ?_⟩
      · rw [c1, pow_succ (s.dt / 2) (κ0 + 1), Nat.factorial_succ (κ0 + 1)]
        have h1 : ((κ0 + 1 + 1 : ℕ) : K) ≠ 0 := Nat.cast_ne_zero.mpr (by omega)
        have h2 : ((Nat.factorial (κ0 + 1) : ℕ) : K) ≠ 0 := Nat.cast_ne_zero.mpr (Nat.factorial_ne_zero _)
        have h3 : ((κ0 : K) + 2) ≠ 0 := by
          have : ((κ0 + 1 + 1 : ℕ) : K) = (κ0 : K) + 2 := by push_cast; ring
          rwa [this] at h1
        have h4 : ((κ0 : K) + 1 + 1) ≠ 0 := by rw [add_assoc]; norm_num; exact h3
        simp only [lit]
        push_cast
        field_simp
        ring
      · intro κ hκ
        by_cases hκ0 : κ = κ0
        · subst hκ0
          rw [v4, c1]
          rfl
        · rw [o4 κ hκ0]
          exact c4 κ (by omega)
      · intro κ hκ
        rw [o4 κ (by omega)]
        exact c5 κ (by omega))
    (s.dt / lit 2) s1 ⟨by simp [lit], a1, rfl, fun κ h => by omega, fun _ _ => rfl⟩
  obtain ⟨-, c2, c3, c4, -⟩ := h2
  have hfin : PrepFrame s s2 ∧ s2.mp 0 = centreState K k Ss ∧ ∀ κ, κ < 2 * k + 2 → s2.diffs κ 0 = denseCoefficient k s.dt Ss κ := by
    refine ⟨c2, ?_, fun κ hκ => c4 κ (by omega)⟩
    rw [c3, a2 0 (by omega)]
    rfl
  rw [M.bind_ok e2]
  split
  · rw [M.bind_ok (getDiff_ok (2 * k + 1) 0 (by omega) s2), M.bind_ok (m := M.get) (w' := s2) (a := s2) rfl]
    exact ⟨_, s2, rfl, hfin⟩
  · exact ⟨_, s2, rfl, hfin⟩

theorem bsdCalcState_value (t : K) (k : ℕ) (hk : k < 9) (s : BsdState K V W) (hf : s.kFinal = some k) :
    bsdCalcState t s = .ok (s.mp 0 + ∑ κ ∈ range (2 * k + 2), (2 * ((t - s.tLast) / (s.t - s.tLast)) - 1) ^ (κ + 1) • s.diffs κ 0) s := by
  unfold bsdCalcState
  rw [M.bind_ok (m := M.get) (w' := s) (a := s) rfl]
  rw [hf]
  dsimp only
  have hθ : (lit 2 * ((t - s.tLast) / (s.t - s.tLast)) - lit 1 : K) = 2 * ((t - s.tLast) / (s.t - s.tLast)) - 1 := by simp [lit]
  rw [hθ]
  generalize 2 * ((t - s.tLast) / (s.t - s.tLast)) - 1 = θ
  obtain ⟨a2, s2, e2, h2⟩ := foldN_ok (body := bsdTerm (V := V) (W := W) θ)
    (fun i a s' => s' = s ∧ a.1 = s.mp 0 + ∑ κ ∈ range i, θ ^ (κ + 1) • s.diffs κ 0 ∧ a.2 = θ ^ (i + 1))
    (2 * k + 2) 0
    (fun i a s1 _ hi hs1 => by
      obtain ⟨rfl, h2, h3⟩ := hs1
      refine ⟨(lin [((lit 1 : K), a.1), (a.2, s1.diffs i 0)], a.2 * θ), s1, ?_, rfl, ?_, ?_⟩
      · unfold bsdTerm
        rw [M.bind_ok (getDiff_ok i 0 (by omega) s1)]
        rfl
      · show lin [((lit 1 : K), a.1), (a.2, s1.diffs i 0)] = _
        rw [lin_pair, h2, h3, sum_range_succ, ← add_assoc]
        simp [lit]
      · show a.2 * θ = _
        rw [h3, pow_succ θ (i + 1)]) (s.mp 0, θ) s ⟨rfl, by simp, by simp⟩
  obtain ⟨rfl, h3, -⟩ := h2
  rw [M.bind_ok e2]
  show Res.ok a2.1 s2 = _
  rw [h3, Nat.zero_add]

theorem sweepLoop_low (sys : Sys K V W) (h : K) : ∀ (n i : ℕ) (th : K) (S S' : Sweep V) (w w' : W), sweepLoop sys h n i th S w = .ok S' w' →
    ∀ j, j ≤ i → S'.p j = S.p j ∧ S'.q j = S.q j := by
  intro n
  induction n with
  | zero => intro i th S S' w w' e j hj; cases e; exact ⟨rfl, rfl⟩
  | succ n ih =>
    intro i th S S' w w' e j hj
    rw [sweepLoop, M.bind_apply] at e
    cases hs : sys (lin [((lit 1 : K), S.p (i - 1)), (lit 2 * h, S.q i)]) (th + h) w with
    | ok d w1 =>
      rw [hs] at e
      have := ih _ _ _ _ _ _ e j (by omega)
      rw [this.1, this.2]
      dsimp only
      rw [Function.update_of_ne (by omega), Function.update_of_ne (by omega)]
      exact ⟨rfl, rfl⟩
    | err _ _ => rw [hs] at e; cases e
    | ub => rw [hs] at e; cases e
    | div => rw [hs] at e; cases e

theorem sweep_q0 (m : ℕ) (sys : Sys K V W) (x d : V) (t dt : K) (w w' : W) (S : Sweep V) (h : sweep m sys x d t dt w = .ok S w') :
    S.p 0 = x ∧ S.q 0 = d := by
  unfold sweep at h
  rw [M.bind_apply] at h
  cases hs : sys (lin [((lit 1 : K), x), (dt / lit (m : ℕ), d)]) (t + dt / lit (m : ℕ)) w with
  | ok d1 w1 =>
    rw [hs] at h
    exact sweepLoop_low sys _ _ _ _ _ _ _ _ h 0 (by omega)
  | err _ _ => rw [hs] at h; cases h
  | ub => rw [hs] at h; cases h
  | div => rw [hs] at h; cases h

theorem sweepsFrom_all (R : ℕ → Sweep V → Prop) (sys : Sys K V W) (x d : V) (t dt : K)
    (hR : ∀ k w S w', sweep (2 + 4 * k) sys x d t dt w = .ok S w' → R k S) : ∀ (n k : ℕ) (Ss Ss' : ℕ → Sweep V) (w w' : W),
    sweepsFrom sys x d t dt n k Ss w = .ok Ss' w' → (∀ j, j < k → R j (Ss j)) → ∀ j, j < k + n → R j (Ss' j) := by
  intro n
  induction n with
  | zero => intro k Ss Ss' w w' h h0 j hj; cases h; exact h0 j hj
  | succ n ih =>
    intro k Ss Ss' w w' h h0 j hj
    rw [sweepsFrom, M.bind_apply] at h
    cases hs : sweep (2 + 4 * k) sys x d t dt w with
    | ok S w1 =>
      rw [hs] at h
      refine ih (k + 1) _ _ _ _ h ?_ j (by omega)
      intro i hi
      by_cases hik : i = k
      · subst hik
        rw [Function.update_self]
        exact hR i _ _ _ hs
      · rw [Function.update_of_ne hik]
        exact h0 i (by omega)
    | err _ _ => rw [hs] at h; cases h
    | ub => rw [hs] at h; cases h
    | div => rw [hs] at h; cases h

/-- a property of every sweep -/
theorem sweeps_all (R : ℕ → Sweep V → Prop) (sys : Sys K V W) (x d : V) (t dt : K)
    (hR : ∀ k w S w', sweep (2 + 4 * k) sys x d t dt w = .ok S w' → R k S) (k : ℕ) (Ss : ℕ → Sweep V) (w w' : W)
    (h : sweeps k sys x d t dt w = .ok Ss w') : ∀ j, j ≤ k → R j (Ss j) := by
  unfold sweeps at h
  rw [M.bind_apply] at h
  cases hs : sweep 2 sys x d t dt w with
  | ok S w1 =>
    rw [hs] at h
    intro j hj
    refine sweepsFrom_all R sys x d t dt hR k 1 _ _ _ _ h ?_ j (by omega)
    intro i hi
    obtain rfl : i = 0 := by omega
    exact hR 0 w S w1 hs
  | err _ _ => rw [hs] at h; cases h
  | ub => rw [hs] at h; cases h
  | div => rw [hs] at h; cases h

end Verif
