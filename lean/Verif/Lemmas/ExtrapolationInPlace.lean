import Verif.Lemmas.Multistep
import Verif.Lemmas.Extrapolation
import Mathlib.Data.Real.Basic
import Mathlib.Tactic.Linarith
import Mathlib.Tactic.Positivity
import Mathlib.Tactic.FieldSimp

/-! # `extrapolation_stepper` in place for `x' = 1` -/

namespace Verif
variable {W : Type}

/-- `x' = 1` -/
def unitSys : Sys ℝ ℝ W := fun _ _ => pure 1

theorem leapFrog_unit (h : ℝ) : ∀ (n : ℕ) (th a b : ℝ) (w : W), ∃ r : ℝ × ℝ × ℝ, leapFrog (unitSys (W := W)) h n th a b 1 w = .ok r w ∧
    r.1 + r.2.1 = a + b + 2 * n * h ∧ r.2.2 = 1
  | 0, th, a, b, w => ⟨(a, b, 1), rfl, by simp, rfl⟩
  | n + 1, th, a, b, w => by
    obtain ⟨r, e, h1, h2⟩ := leapFrog_unit h n (th + h) b (lin [((lit 1 : ℝ), a), (lit 2 * h, 1)]) w
    refine ⟨r, ?_, ?_, h2⟩
    · simp only [leapFrog]
      rw [M.bind_ok (show unitSys (W := W) _ _ w = .ok 1 w from rfl)]
      exact e
    · rw [h1, lin_pair]
      simp [lit]
      ring

theorem midpointStep_unit (m : ℕ) (hm : 1 ≤ m) (x t dt : ℝ) (w : W) : midpointStep m (unitSys (W := W)) x 1 t dt w = .ok (x + dt) w := by
  simp only [midpointStep]
  rw [M.bind_ok (show unitSys (W := W) _ _ w = .ok 1 w from rfl)]
  obtain ⟨r, e, h1, h2⟩ := leapFrog_unit (W := W) (dt / lit m) (m - 1) (t + dt / lit m) x (lin [((lit 1 : ℝ), x), (dt / lit m, 1)]) w
  rw [M.bind_ok e]
  show Res.ok _ _ = _
  congr 1
  rw [lin_pair] at h1
  show List.sum _ = _
  have hm' : (m : ℝ) ≠ 0 := by positivity
  rw [Nat.cast_sub hm] at h1
  simp only [lit, frac, h2, List.map_cons, List.map_nil, List.sum_cons, List.sum_nil, smul_eq_mul] at *
  push_cast at *
  have : (m : ℝ) * (dt / m) = dt := by field_simp
  linear_combination (1 / 2) * h1 + this

theorem midpointImpl_unit (m : ℕ) (hm : 1 ≤ m) (hm' : m < 65536) (inp dxdt out : Loc) (t dt : ℝ) (h : Heap ℝ ℝ W)
    (hinp : ¬ inp.ownedBy [.midp]) (hd : h.state dxdt = 1) :
    ∃ h', midpointImpl m unitSys inp dxdt t out dt h = .ok () h' ∧ h'.world = h.world ∧
      ∀ l, ¬ l.ownedBy [.midp] → (h.set out (h.state inp + dt)).SameAt h' l := by
  have H := midpoint_implements m hm hm' unitSys inp dxdt out t dt h hinp
  unfold Implements at H
  rw [hd, midpointStep_unit m hm] at H
  obtain ⟨h', a1, a2, a3⟩ := H
  exact ⟨h', a1, a2, fun l hl => a3 l hl⟩

theorem exCoeff_nonneg {k j : ℕ} (h : j < k) : 0 ≤ (exCoeff k j : ℝ) := by
  have h1 : (1 : ℝ) ≤ ((k : ℝ) + 1) / ((j : ℝ) + 1) := by
    rw [le_div_iff₀ (by positivity), one_mul]
    have : (j : ℝ) ≤ k := by exact_mod_cast h.le
    linarith
  have h2 : (lit (interval k) / lit (interval j) : ℝ) = ((k : ℝ) + 1) / ((j : ℝ) + 1) := by
    simp only [lit, interval]
    push_cast
    rw [mul_div_mul_left _ _ (by norm_num)]
  simp only [exCoeff]
  rw [h2]
  refine div_nonneg (by simp [lit]) ?_
  simp only [lit]
  push_cast
  nlinarith

/-- the loop of `extrapolate` on entries `x + a i * dt` -/
theorem extrapolateLoop_unit (k : ℕ) (o : ℝ) (a : ℕ → ℝ) : ∀ (j : ℕ) (c : ℝ), j < k → o ≤ c → (∀ i < j, a i ≤ o) →
    ∃ b : ℕ → ℝ, (∀ i ≤ j, c ≤ b i ∧ b i ≤ b 0) ∧ ∀ (h : Heap ℝ ℝ W) (x dt : ℝ), h.state (exTable j) = x + c * dt →
      (∀ i < j, h.state (exTable i) = x + a i * dt) → ∃ h', extrapolateLoop k j h = .ok () h' ∧ h'.world = h.world ∧
      (∀ i ≤ j, h'.state (exTable i) = x + b i * dt) ∧ ∀ l, (∀ i < j, l ≠ exTable i) → h.SameAt h' l
  | 0, c, hj, hc, ha => ⟨fun _ => c, fun i _ => ⟨le_rfl, le_rfl⟩, fun h x dt h1 _ => ⟨h, rfl, rfl, fun i hi => by
      obtain rfl : i = 0 := by omega
      exact h1, fun l _ => Heap.SameAt.refl _ _⟩⟩
  | j + 1, c, hj, hc, ha => by
    have hq : 0 ≤ (exCoeff k (j + 1) : ℝ) := exCoeff_nonneg hj
    set c' := c + exCoeff k (j + 1) * (c - a j) with hc'
    have h1 : c ≤ c' := by
      have := ha j (by omega)
      nlinarith
    obtain ⟨b, hb1, hb2⟩ := extrapolateLoop_unit k o a j c' (by omega) (hc.trans h1) fun i hi => ha i (by omega)
    refine ⟨fun i => if i = j + 1 then c else b i, fun i hi => ?_, fun h x dt e1 e2 => ?_⟩
    · simp only [show (0 : ℕ) ≠ j + 1 by omega, if_false]
      have h0 := (hb1 0 (by omega)).1
      split
      · exact ⟨le_rfl, h1.trans h0⟩
      · have := hb1 i (by omega)
        exact ⟨h1.trans this.1, this.2⟩
    · set h1 := h.set (exTable j) (x + c' * dt) with hh1
      have f1 : linTo (exTable j) [(lit 1 + exCoeff k (j + 1), exTable (j + 1)), (-exCoeff k (j + 1), exTable j)] h = .ok () h1 := by
        simp only [linTo, List.map_cons, List.map_nil, e1, e2 j (by omega), lin_pair]
        congr 2
        simp only [lit, smul_eq_mul, hc']
        push_cast
        ring
      obtain ⟨h2, g1, g2, g3, g4⟩ := hb2 h1 x dt (by simp [hh1]) (fun i hi => by
        rw [hh1, Heap.set_state_ne _ _ (exTable_ne (by omega))]
        exact e2 i (by omega))
      refine ⟨h2, ?_, g2, fun i hi => ?_, fun l hl => ?_⟩
      · rw [extrapolateLoop, M.bind_ok f1]
        exact g1
      · show h2.state (exTable i) = x + (if i = j + 1 then c else b i) * dt
        split
        · rename_i hi
          subst hi
          rw [(g4 (exTable (j + 1)) fun i hi => exTable_ne (by omega)).1, hh1, Heap.set_state_ne _ _ (exTable_ne (by omega))]
          exact e1
        · exact g3 i (by omega)
      · exact (Heap.SameAt.set_ne _ _ (hl j (by omega))).trans (g4 l fun i hi => hl i (by omega))

theorem extrapolationLoop_unit (inp : Loc) (hi : ¬ inp.ownedBy [.midp, .extrap]) :
    ∀ (n k : ℕ), 1 ≤ k → n + k < 32768 → ∀ (o : ℝ) (a : ℕ → ℝ), (∀ i < k - 1, a i ≤ o) →
    ∃ o', o + n ≤ o' ∧ ∀ dxdt : Loc, ¬ dxdt.ownedBy [.midp, .extrap] → dxdt ≠ inp → ∀ (h : Heap ℝ ℝ W) (x t dt : ℝ), h.state inp = x + o * dt → h.state dxdt = 1 → (∀ i < k - 1, h.state (exTable i) = x + a i * dt) →
      ∃ h', extrapolationLoop unitSys inp dxdt t inp dt n k h = .ok () h' ∧ h'.world = h.world ∧ h'.state inp = x + o' * dt ∧
        ∀ l, ¬ l.ownedBy [.midp, .extrap] → l ≠ inp → h.SameAt h' l
  | 0, k, _, _, o, a, _ => ⟨o, by simp, fun _ _ _ h x t dt h1 _ _ => ⟨h, rfl, rfl, h1, fun l _ _ => Heap.SameAt.refl _ _⟩⟩
  | n + 1, k, hk, hk', o, a, ha => by
    have sub : ∀ l : Loc, ¬ l.ownedBy [.midp, .extrap] → ¬ l.ownedBy [.midp] := fun l hl => not_owned_sub hl (by simp)
    have hex : ∀ (l : Loc) i, ¬ l.ownedBy [.midp, .extrap] → l ≠ exTable i := fun l i hl => ne_priv (o := .extrap) hl (by simp) (i + 1)
    have exm : ∀ i, ¬ (exTable i).ownedBy [.midp] := fun i => by simp [exTable, Loc.ownedBy]
    obtain ⟨b, hb1, hb2⟩ := extrapolateLoop_unit (W := W) k o a (k - 1) (o + 1) (by omega) (by linarith) ha
    have hq : 0 ≤ (exCoeff k 0 : ℝ) := exCoeff_nonneg (by omega)
    have hb0 := (hb1 0 (by omega)).1
    set o1 := b 0 + exCoeff k 0 * (b 0 - o) with ho1
    have ho1' : b 0 ≤ o1 := by nlinarith
    obtain ⟨o', p1, p2⟩ := extrapolationLoop_unit inp hi n (k + 1) (by omega) (by omega) o1 b
      fun i hi => (hb1 i (by omega)).2.trans ho1'
    refine ⟨o', by push_cast; linarith, fun dxdt hd hne h x t dt e1 e2 e3 => ?_⟩
    -- the midpoint method
    obtain ⟨h1, m1, m2, m3⟩ := midpointImpl_unit (interval k) (by unfold interval; omega) (by simp only [interval]; omega) inp dxdt (exTable (k - 1)) t dt h
      (sub _ hi) e2
    have s1 : ∀ l, ¬ l.ownedBy [.midp, .extrap] → h.SameAt h1 l := fun l hl =>
      (Heap.SameAt.set_ne _ _ (hex l _ hl)).trans (m3 l (sub l hl))
    have t1 : h1.state (exTable (k - 1)) = x + (o + 1) * dt := by
      rw [(m3 _ (exm _)).1, e1]
      simp only [Heap.set_state_self]
      ring
    have t2 : ∀ i < k - 1, h1.state (exTable i) = x + a i * dt := fun i hi => by
      rw [(m3 _ (exm _)).1, Heap.set_state_ne _ _ (exTable_ne (by omega))]
      exact e3 i hi
    obtain ⟨h2, n1, n2, n3, n4⟩ := hb2 h1 x dt t1 t2
    have s2 : ∀ l, ¬ l.ownedBy [.midp, .extrap] → h.SameAt h2 l := fun l hl => (s1 l hl).trans (n4 l fun i _ => hex l i hl)
    set h3 := h2.set inp (x + o1 * dt) with hh3
    have f3 : linTo inp [(lit 1 + exCoeff k 0, exTable 0), (-exCoeff k 0, inp)] h2 = .ok () h3 := by
      simp only [linTo, List.map_cons, List.map_nil]
      rw [n3 0 (by omega), (s2 inp hi).1, e1, lin_pair, hh3]
      have : (lit 1 + exCoeff k 0 : ℝ) • (x + b 0 * dt) + (-exCoeff k 0 : ℝ) • (x + o * dt) = x + o1 * dt := by
        simp only [lit, smul_eq_mul, ho1]
        push_cast
        ring
      rw [this]
    obtain ⟨h4, r1, r2, r3, r4⟩ := p2 dxdt hd hne h3 x t dt (by simp [hh3]) (by
        rw [hh3, Heap.set_state_ne _ _ hne, (s2 dxdt hd).1]; exact e2) (fun i hlt => by
        rw [hh3, Heap.set_state_ne _ _ (Ne.symm (hex inp i hi))]
        exact n3 i (by omega))
    refine ⟨h4, ?_, r2.trans (n2.trans m2), r3, fun l hl hne' => (s2 l hl).trans ((Heap.SameAt.set_ne _ _ hne').trans (r4 l hl hne'))⟩
    have f2 : extrapolate k inp h1 = .ok () h3 := by
      unfold extrapolate
      rw [M.bind_ok n1]
      exact f3
    rw [extrapolationLoop, M.bind_ok m1, M.bind_ok f2]
    exact r1

/-- In place, `extrapolation_stepper` with `kmax ≥ 1` moves the state of `x' = 1` by at least `( 1 + kmax ) dt` instead of `dt`. -/
theorem extrapolationImpl_unit (kmax : ℕ) (hk : kmax < 32767) (inp : Loc) (hi : ¬ inp.ownedBy [.midp, .extrap]) :
    ∃ c : ℝ, 1 + kmax ≤ c ∧ ∀ dxdt : Loc, ¬ dxdt.ownedBy [.midp, .extrap] → dxdt ≠ inp → ∀ (h : Heap ℝ ℝ W) (t dt : ℝ), h.state dxdt = 1 →
      ∃ h', extrapolationImpl kmax unitSys inp dxdt t inp dt h = .ok () h' ∧ h'.world = h.world ∧ h'.state inp = h.state inp + c * dt ∧
        ∀ l, ¬ l.ownedBy [.midp, .extrap] → l ≠ inp → h.SameAt h' l := by
  obtain ⟨c, hc, H⟩ := extrapolationLoop_unit (W := W) inp hi kmax 1 le_rfl (by omega) 1 (fun _ => 0) (by simp)
  refine ⟨c, hc, fun dxdt hd hne h t dt e => ?_⟩
  have sub : ∀ l : Loc, ¬ l.ownedBy [.midp, .extrap] → ¬ l.ownedBy [.midp] := fun l hl => not_owned_sub hl (by simp)
  obtain ⟨h1, m1, m2, m3⟩ := midpointImpl_unit (interval 0) (by simp [interval]) (by simp [interval]) inp dxdt inp t dt h (sub _ hi) e
  obtain ⟨h2, n1, n2, n3, n4⟩ := H dxdt hd hne h1 (h.state inp) t dt (by rw [(m3 inp (sub _ hi)).1]; simp) (by
    rw [(m3 dxdt (sub _ hd)).1, Heap.set_state_ne _ _ hne]; exact e) (by simp)
  refine ⟨h2, ?_, n2.trans m2, n3, fun l hl hne' => ((Heap.SameAt.set_ne _ _ hne').trans (m3 l (sub l hl))).trans (n4 l hl hne')⟩
  unfold extrapolationImpl
  rw [M.bind_ok m1]
  exact n1

end Verif
