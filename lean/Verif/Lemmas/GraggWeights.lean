import Verif.Lemmas.MidpointOrder
import Verif.Lemmas.Neville
import Mathlib.Algebra.Polynomial.Degree.SmallDegree

/-!
# The elementary weights of Gragg's scheme are polynomials in `1 / m^2`

For an even number `m` of sub-steps the points with even and odd index follow two polynomials each of definite parity.
-/

set_option linter.unusedSectionVars false

namespace Verif.BSeries
open Polynomial

/-- the discrete antiderivative: `P(x+1) - P(x-1) = 2 F(x)`; parity alternates, the leading coefficient is divided by the degree -/
theorem exists_antidiff (ε : ℝ) : ∀ (d : ℕ) (F : ℝ[X]), (∀ n, d ≤ n → F.coeff n = 0) → F.comp (-X) = C ε * F →
    ∃ P : ℝ[X], P.comp (X + 1) - P.comp (X - 1) = C 2 * F ∧ (∀ n, d < n → P.coeff n = 0) ∧ P.comp (-X) = C (-ε) * P ∧
      ∀ n, d ≤ n + 1 → P.coeff (n + 1) = F.coeff n / (n + 1) := by
  intro d
  induction d with
  | zero =>
    intro F h _
    have : F = 0 := by ext n; simp [h n (by omega)]
    subst this
    exact ⟨0, by simp, by simp, by simp, by simp⟩
  | succ d ih =>
    intro F hF hpar
    set a := F.coeff d with ha
    by_cases h0 : a = 0
    · obtain ⟨P, h1, h2, h3, h4⟩ := ih F (fun n hn => by
        rcases Nat.eq_or_lt_of_le hn with rfl | hn'
        · exact h0
        · exact hF n hn') hpar
      exact ⟨P, h1, fun n hn => h2 n (by omega), h3, fun n hn => h4 n (by omega)⟩
    · have hε : ε = (-1) ^ d := by
        have := congrArg (fun p => coeff p d) hpar
        simp only [coeff_C_mul] at this
        rw [show F.comp (-X) = F.comp (C (-1) * X) by simp, comp_C_mul_X_coeff] at this
        rw [← ha] at this
        exact mul_right_cancel₀ h0 (by linarith)
      have hd : ((d : ℝ) + 1) ≠ 0 := by positivity
      set P0 : ℝ[X] := C (a / (d + 1)) * X ^ (d + 1) with hP0
      set D : ℝ[X] := P0.comp (X + 1) - P0.comp (X - 1) with hD
      have hDe : D = C (a / (d + 1)) * ((X + C 1) ^ (d + 1) - (X + C (-1)) ^ (d + 1)) := by
        rw [hD, hP0]
        simp only [mul_comp, C_comp, pow_comp, X_comp, map_one, map_neg]
        ring
      have hDc : ∀ k, D.coeff k = a / (d + 1) * ((1 - (-1) ^ (d + 1 - k)) * ((d + 1).choose k : ℝ)) := by
        intro k
        rw [hDe, coeff_C_mul, coeff_sub, coeff_X_add_C_pow, coeff_X_add_C_pow, one_pow]
        ring
      have hpP0 : P0.comp (-X) = C (-ε) * P0 := by
        rw [hP0, hε]
        simp only [mul_comp, C_comp, pow_comp, X_comp]
        rw [neg_pow (X : ℝ[X]) (d + 1)]
        simp only [map_neg, map_pow, map_one]
        ring
      have hpD : D.comp (-X) = C ε * D := by
        have e1 : (P0.comp (X + 1)).comp (-X) = (P0.comp (-X)).comp (X - 1) := by
          simp only [comp_assoc, add_comp, X_comp, one_comp, neg_comp]
          congr 1; ring
        have e2 : (P0.comp (X - 1)).comp (-X) = (P0.comp (-X)).comp (X + 1) := by
          simp only [comp_assoc, sub_comp, X_comp, one_comp, neg_comp]
          congr 1; ring
        rw [hD, sub_comp, e1, e2, hpP0]
        simp only [mul_comp, map_neg, neg_comp, C_comp]
        ring
      obtain ⟨P, h1, h2, h3, h4⟩ := ih (F - C (1 / 2) * D) (fun n hn => by
        rw [coeff_sub, coeff_C_mul, hDc]
        rcases Nat.eq_or_lt_of_le hn with rfl | hn'
        · rw [show d + 1 - d = 1 by omega, Nat.choose_succ_self_right, ← ha]
          push_cast
          field_simp
          ring
        · rw [hF n (by omega)]
          rcases Nat.eq_or_lt_of_le hn' with rfl | hn''
          · simp
          · rw [Nat.choose_eq_zero_of_lt (by omega)]
            simp) (by
        rw [sub_comp, mul_comp, C_comp, hpar, hpD]
        ring)
      have c0 : ∀ n, P0.coeff n = if n = d + 1 then a / (d + 1) else 0 := by
        intro n
        rw [hP0, coeff_C_mul_X_pow]
      refine ⟨P + P0, ?_, ?_, ?_, ?_⟩
      · rw [add_comp, add_comp]
        have : (C (2:ℝ)) * C (1/2) = 1 := by rw [← C_mul]; norm_num
        have e : P.comp (X + 1) + P0.comp (X + 1) - (P.comp (X - 1) + P0.comp (X - 1)) =
            (P.comp (X + 1) - P.comp (X - 1)) + D := by rw [hD]; ring
        rw [e, h1]
        linear_combination (-D) * this
      · intro n hn
        rw [coeff_add, h2 n (by omega), c0, if_neg (by omega), add_zero]
      · rw [add_comp, h3, hpP0]; ring
      · intro n hn
        rw [coeff_add, h2 (n + 1) (by omega), c0, zero_add]
        rcases Nat.eq_or_lt_of_le hn with h | h
        · obtain rfl : n = d := by omega
          rw [if_pos rfl, ha]
        · rw [if_neg (by omega), hF n (by omega), zero_div]

/-- the even and the odd points of the leap-frog scheme follow two polynomials -/
structure Follows (n : ℕ) (c : ℝ) (g : ℕ → ℝ) (p q : ℝ[X]) : Prop where
  even : ∀ r, g (2 * r) = p.eval ((2 * r : ℕ) : ℝ)
  odd : ∀ r, g (2 * r + 1) = q.eval ((2 * r + 1 : ℕ) : ℝ)
  pdeg : ∀ k, n < k → p.coeff k = 0
  qdeg : ∀ k, n < k → q.coeff k = 0
  plead : p.coeff n = c
  qlead : q.coeff n = c
  ppar : p.comp (-X) = C ((-1) ^ n) * p
  qpar : q.comp (-X) = C ((-1) ^ n) * q

theorem eval_of_comp {P F : ℝ[X]} (h : P.comp (X + 1) - P.comp (X - 1) = C 2 * F) (x : ℝ) : P.eval (x + 1) = P.eval (x - 1) + 2 * F.eval x := by
  have := congrArg (eval x) h
  simp only [eval_sub, eval_comp, eval_add, eval_X, eval_one, eval_mul, eval_C] at this
  linarith

/-- a polynomial whose reflection is a multiple -/
theorem eval_neg_of_comp {P : ℝ[X]} {ε : ℝ} (h : P.comp (-X) = C ε * P) (x : ℝ) : P.eval (-x) = ε * P.eval x := by
  have := congrArg (eval x) h
  simpa only [eval_comp, eval_neg, eval_X, eval_mul, eval_C] using this

/-- one application of the scheme -/
theorem follows_leap {n : ℕ} {c : ℝ} {g : ℕ → ℝ} {p q : ℝ[X]} (hg : Follows n c g p q) :
    ∃ P Q : ℝ[X], Follows (n + 1) (c / (n + 1)) (leap (0 : ℝ) 1 g) P Q ∧ P.eval 0 = 0 ∧ Q.eval 1 + Q.eval (-1) = 0 ∧
      ∀ x, Q.eval (x + 1) = Q.eval (x - 1) + 2 * p.eval x := by
  obtain ⟨P, p1, p2, p3, p4⟩ := exists_antidiff ((-1) ^ n) (n + 1) q (fun k hk => hg.qdeg k (by omega)) hg.qpar
  obtain ⟨Q, q1, q2, q3, q4⟩ := exists_antidiff ((-1) ^ n) (n + 1) p (fun k hk => hg.pdeg k (by omega)) hg.ppar
  have hs : (-(-1) ^ n : ℝ) = (-1) ^ (n + 1) := by rw [pow_succ]; ring
  rw [hs] at p3 q3
  -- the constants
  set P' := P - C (P.eval 0) with hP'
  set Q' := Q - C ((Q.eval 1 + Q.eval (-1)) / 2) with hQ'
  have P0 : P'.eval 0 = 0 := by simp [hP']
  have Q0 : Q'.eval 1 + Q'.eval (-1) = 0 := by simp [hQ']; ring
  have cP : (C (P.eval 0)).comp (-X) = C ((-1) ^ (n + 1)) * C (P.eval 0) := by
    have := eval_neg_of_comp p3 0
    rw [neg_zero] at this
    rw [C_comp, ← C_mul, ← this]
  have cQ : (C ((Q.eval 1 + Q.eval (-1)) / 2)).comp (-X) = C ((-1) ^ (n + 1)) * C ((Q.eval 1 + Q.eval (-1)) / 2) := by
    have h1 := eval_neg_of_comp q3 1
    have h2 := eval_neg_of_comp q3 (-1)
    rw [neg_neg] at h2
    rw [C_comp, ← C_mul]
    congr 1
    linarith
  have P1 : ∀ x, P'.eval (x + 1) = P'.eval (x - 1) + 2 * q.eval x := by
    intro x
    have := eval_of_comp p1 x
    simp only [hP', eval_sub, eval_C]
    linarith
  have Q1 : ∀ x, Q'.eval (x + 1) = Q'.eval (x - 1) + 2 * p.eval x := by
    intro x
    have := eval_of_comp q1 x
    simp only [hQ', eval_sub, eval_C]
    linarith
  refine ⟨P', Q', ⟨?_, ?_, ?_, ?_, ?_, ?_, ?_, ?_⟩, P0, Q0, Q1⟩
  · intro r
    induction r with
    | zero => simp [leap, P0]
    | succ r ih =>
      rw [show 2 * (r + 1) = 2 * r + 2 by ring]
      simp only [leap, ih, hg.odd r]
      have := P1 ((2 * r + 1 : ℕ) : ℝ)
      rw [show (((2 * r + 1 : ℕ) : ℝ) + 1) = ((2 * r + 2 : ℕ) : ℝ) by push_cast; ring,
        show (((2 * r + 1 : ℕ) : ℝ) - 1) = ((2 * r : ℕ) : ℝ) by push_cast; ring] at this
      rw [this, smul_eq_mul]
      ring
  · intro r
    induction r with
    | zero =>
      have h1 := Q1 0
      have h2 := hg.even 0
      simp only [Nat.mul_zero, Nat.cast_zero, zero_add, zero_sub] at h1 h2
      simp only [Nat.mul_zero, zero_add, leap, one_smul, Nat.cast_one, h2]
      linarith
    | succ r ih =>
      rw [show 2 * (r + 1) + 1 = (2 * r + 1) + 2 by ring]
      simp only [leap, ih]
      have h2 := hg.even (r + 1)
      rw [show 2 * (r + 1) = 2 * r + 1 + 1 by ring] at h2
      have := Q1 ((2 * r + 1 + 1 : ℕ) : ℝ)
      rw [show (((2 * r + 1 + 1 : ℕ) : ℝ) + 1) = ((2 * r + 1 + 2 : ℕ) : ℝ) by push_cast; ring,
        show (((2 * r + 1 + 1 : ℕ) : ℝ) - 1) = ((2 * r + 1 : ℕ) : ℝ) by push_cast; ring] at this
      rw [this, h2, smul_eq_mul]
      ring
  · intro k hk
    rw [hP', coeff_sub, coeff_C, if_neg (by omega), p2 k hk, sub_zero]
  · intro k hk
    rw [hQ', coeff_sub, coeff_C, if_neg (by omega), q2 k hk, sub_zero]
  · rw [hP', coeff_sub, coeff_C, if_neg (by omega), p4 n le_rfl, sub_zero, hg.qlead]
  · rw [hQ', coeff_sub, coeff_C, if_neg (by omega), q4 n le_rfl, sub_zero, hg.plead]
  · rw [hP', sub_comp, p3, cP]; ring
  · rw [hQ', sub_comp, q3, cQ]; ring

theorem coeff_mul_top {a b : ℝ[X]} {m n : ℕ} (ha : ∀ k, m < k → a.coeff k = 0) (hb : ∀ k, n < k → b.coeff k = 0) :
    (a * b).coeff (m + n) = a.coeff m * b.coeff n ∧ ∀ k, m + n < k → (a * b).coeff k = 0 := by
  have h1 : a.natDegree ≤ m := natDegree_le_iff_coeff_eq_zero.2 ha
  have h2 : b.natDegree ≤ n := natDegree_le_iff_coeff_eq_zero.2 hb
  refine ⟨coeff_mul_add_eq_of_natDegree_le h1 h2, fun k hk => ?_⟩
  exact coeff_eq_zero_of_natDegree_lt (lt_of_le_of_lt (natDegree_mul_le.trans (add_le_add h1 h2)) hk)

theorem follows_mul {m n : ℕ} {c d : ℝ} {g g' : ℕ → ℝ} {p q p' q' : ℝ[X]} (h : Follows m c g p q) (h' : Follows n d g' p' q') :
    Follows (m + n) (c * d) (fun i => g i * g' i) (p * p') (q * q') where
  even r := by rw [eval_mul, h.even, h'.even]
  odd r := by rw [eval_mul, h.odd, h'.odd]
  pdeg := (coeff_mul_top h.pdeg h'.pdeg).2
  qdeg := (coeff_mul_top h.qdeg h'.qdeg).2
  plead := by rw [(coeff_mul_top h.pdeg h'.pdeg).1, h.plead, h'.plead]
  qlead := by rw [(coeff_mul_top h.qdeg h'.qdeg).1, h.qlead, h'.qlead]
  ppar := by rw [mul_comp, h.ppar, h'.ppar, pow_add, C_mul]; ring
  qpar := by rw [mul_comp, h.qpar, h'.qpar, pow_add, C_mul]; ring

theorem follows_phi (τ : PTree Unit) : ∃ p q : ℝ[X], Follows (τ.size - 1) (exactWeight τ) (phi τ) p q := by
  induction τ with
  | leaf c =>
    refine ⟨1, 1, ?_⟩
    refine ⟨by simp [phi], by simp [phi], ?_, ?_, ?_, ?_, by simp [PTree.size], by simp [PTree.size]⟩
    · intro k hk; rw [coeff_one, if_neg (by simp [PTree.size] at hk; omega)]
    · intro k hk; rw [coeff_one, if_neg (by simp [PTree.size] at hk; omega)]
    · simp [PTree.size, exactWeight]
    · simp [PTree.size, exactWeight]
  | graft a r ha hr =>
    obtain ⟨p, q, h1⟩ := ha
    obtain ⟨p', q', h2⟩ := hr
    obtain ⟨P, Q, h3, -⟩ := follows_leap h1
    refine ⟨P * p', Q * q', ?_⟩
    have := follows_mul h3 h2
    have s1 := a.size_pos
    have s2 := r.size_pos
    have e : ((a.size - 1 : ℕ) : ℝ) + 1 = a.size := by
      rw [Nat.cast_sub s1]; push_cast; ring
    rw [e, show a.size - 1 + 1 + (r.size - 1) = a.size + r.size - 1 by omega] at this
    exact this

/-- the weight of Gragg's scheme with `2 r` sub-steps is a polynomial in `1 / (2 r)^2` with known value at `0` -/
theorem gragg_weight_poly (τ : PTree Unit) : ∃ R : ℝ[X], R.natDegree ≤ (τ.size - 1) / 2 ∧ R.eval 0 = exactWeight τ / τ.size ∧
    ∀ r : ℕ, 1 ≤ r → ∑ i ∈ Finset.range (2 * r + 1), graggB (2 * r) i * stageWeight (fun i j => alpha i j / (2 * r : ℕ)) (fun _ => ()) τ i =
      R.eval (1 / ((2 * r : ℕ) : ℝ) ^ 2) := by
  obtain ⟨p, q, h1⟩ := follows_phi τ
  obtain ⟨P, Q, h3, hP0, hQ0, hQ⟩ := follows_leap h1
  have s1 := τ.size_pos
  obtain ⟨n, hn⟩ : ∃ n, τ.size = n + 1 := ⟨τ.size - 1, by omega⟩
  rw [hn, Nat.add_sub_cancel] at h1 h3
  set S : ℝ[X] := C (1 / 2) * (P + C (1 / 2) * (Q.comp (X + 1) + Q.comp (X - 1))) with hS
  have S0 : S.eval 0 = 0 := by
    simp only [hS, eval_mul, eval_C, eval_add, eval_comp, eval_X, eval_one, eval_sub, zero_add, zero_sub, hP0, hQ0]
    ring
  have Spar : S.comp (-X) = C ((-1) ^ (n + 1)) * S := by
    have e1 : (Q.comp (X + 1)).comp (-X) = (Q.comp (-X)).comp (X - 1) := by
      simp only [comp_assoc, add_comp, X_comp, one_comp, neg_comp]
      congr 1; ring
    have e2 : (Q.comp (X - 1)).comp (-X) = (Q.comp (-X)).comp (X + 1) := by
      simp only [comp_assoc, sub_comp, X_comp, one_comp, neg_comp]
      congr 1; ring
    rw [hS]
    simp only [mul_comp, add_comp, C_comp, e1, e2, h3.ppar, h3.qpar]
    ring
  have Qd : Q.natDegree ≤ n + 1 := natDegree_le_iff_coeff_eq_zero.2 h3.qdeg
  have Pd : P.natDegree ≤ n + 1 := natDegree_le_iff_coeff_eq_zero.2 h3.pdeg
  have hshift : ∀ a : ℝ, (Q.comp (X + C a)).natDegree ≤ n + 1 ∧ (Q.comp (X + C a)).coeff (n + 1) = Q.coeff (n + 1) := by
    intro a
    have e : (Q.comp (X + C a)).natDegree = Q.natDegree := by rw [natDegree_comp, natDegree_X_add_C, mul_one]
    refine ⟨by rw [e]; exact Qd, ?_⟩
    rcases Nat.eq_or_lt_of_le Qd with h | h
    · have := leadingCoeff_comp (p := Q) (q := X + C a) (by rw [natDegree_X_add_C]; omega)
      rw [leadingCoeff, leadingCoeff, e, h, leadingCoeff_X_add_C, one_pow, mul_one] at this
      exact this
    · rw [coeff_eq_zero_of_natDegree_lt (by rw [e]; exact h), coeff_eq_zero_of_natDegree_lt h]
  have hm1 : Q.comp (X - 1) = Q.comp (X + C (-1)) := by simp [sub_eq_add_neg]
  have hp1 : Q.comp (X + 1) = Q.comp (X + C 1) := by simp
  have Sd : S.natDegree ≤ n + 1 := by
    rw [hS, hm1, hp1]
    refine (natDegree_C_mul_le _ _).trans ((natDegree_add_le _ _).trans (max_le Pd ((natDegree_C_mul_le _ _).trans
      ((natDegree_add_le _ _).trans (max_le (hshift 1).1 (hshift (-1)).1)))))
  have Sl : S.coeff (n + 1) = exactWeight τ / τ.size := by
    rw [hS, hm1, hp1, coeff_C_mul, coeff_add, coeff_C_mul, coeff_add, (hshift 1).2, (hshift (-1)).2, h3.plead, h3.qlead, hn]
    push_cast
    ring
  have Sodd : ∀ k, S.coeff k ≠ 0 → (-1 : ℝ) ^ k = (-1) ^ (n + 1) := by
    intro k hk
    have := congrArg (fun p => coeff p k) Spar
    simp only [coeff_C_mul] at this
    rw [show S.comp (-X) = S.comp (C (-1) * X) by simp, comp_C_mul_X_coeff, mul_comm] at this
    exact mul_right_cancel₀ hk this
  refine ⟨∑ j ∈ Finset.range (n / 2 + 1), C (S.coeff (n + 1 - 2 * j)) * X ^ j, ?_, ?_, ?_⟩
  · rw [hn, Nat.add_sub_cancel]
    refine natDegree_sum_le_of_forall_le _ _ fun j hj => ?_
    have := Finset.mem_range.1 hj
    exact (natDegree_C_mul_le _ _).trans ((natDegree_X_pow_le _).trans (by omega))
  · rw [eval_finsetSum, Finset.sum_range_succ']
    simp [Sl]
  · intro r hr
    have h0 : ((2 * r : ℕ) : ℝ) ≠ 0 := by exact_mod_cast (by omega : 2 * r ≠ 0)
    rw [graggB_weight (2 * r) (by omega)]
    obtain ⟨r', rfl⟩ : ∃ r', r = r' + 1 := ⟨r - 1, by omega⟩
    have e1 : leap (0 : ℝ) 1 (phi τ) (2 * (r' + 1) - 1) + leap (0 : ℝ) 1 (phi τ) (2 * (r' + 1)) + phi τ (2 * (r' + 1)) =
        2 * S.eval ((2 * (r' + 1) : ℕ) : ℝ) := by
      rw [show 2 * (r' + 1) - 1 = 2 * r' + 1 by omega, h3.odd, h3.even, h1.even, hS]
      simp only [eval_mul, eval_C, eval_add, eval_comp, eval_X, eval_one, eval_sub]
      have := hQ ((2 * (r' + 1) : ℕ) : ℝ)
      rw [show (((2 * (r' + 1) : ℕ) : ℝ) - 1) = ((2 * r' + 1 : ℕ) : ℝ) by push_cast; ring] at *
      rw [this]
      ring
    rw [e1]
    generalize ((2 * (r' + 1) : ℕ) : ℝ) = m at *
    rw [eval_finsetSum, hn, eval_eq_sum_range' (lt_of_le_of_lt Sd (Nat.lt_succ_self _))]
    simp only [eval_mul, eval_C, eval_pow, eval_X]
    rw [mul_div_cancel_left₀ _ (by norm_num), Finset.sum_div]
    -- only the exponents `n + 1 - 2 j` contribute
    symm
    refine Finset.sum_of_injOn (fun j => n + 1 - 2 * j) ?_ ?_ ?_ ?_
    · intro a ha b hb hab
      simp at ha hb hab
      omega
    · intro j hj
      simp at hj ⊢
    · intro k hk hk'
      simp only [Finset.mem_range, Finset.coe_range, Set.mem_image, Set.mem_Iio, not_exists, not_and] at hk hk'
      have : S.coeff k = 0 := by
        by_contra hne
        rcases Nat.eq_zero_or_pos k with rfl | hkp
        · exact hne (by rw [coeff_zero_eq_eval_zero, S0])
        · have hpar := Sodd k hne
          have h2 : 2 * ((n + 1 - k) / 2) = n + 1 - k := by
            rcases Nat.mod_two_eq_zero_or_one (n + 1 - k) with h | h
            · omega
            · exfalso
              have hsplit : n + 1 = k + (n + 1 - k) := by omega
              have hodd : Odd (n + 1 - k) := Nat.odd_iff.2 h
              rw [hsplit, pow_add, hodd.neg_one_pow] at hpar
              have : ((-1 : ℝ) ^ k) ≠ 0 := pow_ne_zero _ (by norm_num)
              have : (-1 : ℝ) ^ k = 0 := by linarith
              contradiction
          exact hk' ((n + 1 - k) / 2) (by omega) (by omega)
      rw [this]; simp
    · intro j hj
      simp only [Finset.mem_range] at hj
      have e : m ^ (n + 1) = m ^ (n + 1 - 2 * j) * (m ^ 2) ^ j := by
        rw [← pow_mul, ← pow_add]; congr 1; omega
      rw [e, one_div, inv_pow]
      have hA : m ^ (n + 1 - 2 * j) ≠ 0 := pow_ne_zero _ h0
      have hB : (m ^ 2) ^ j ≠ 0 := pow_ne_zero _ (pow_ne_zero _ h0)
      generalize m ^ (n + 1 - 2 * j) = A at *
      generalize (m ^ 2) ^ j = B at *
      field_simp

end Verif.BSeries
