import Verif.Spec.ImplicitEulerRun
import Mathlib.Tactic.Linarith
import Mathlib.Tactic.Positivity
import Mathlib.Tactic.GCongr

/-! # The elimination of ublas near `-1` -/

namespace Verif

/-- `-1` -/
def minusOne (r c : ℕ) : ℝ := if r = c then -1 else 0

/-- The first `n` rows and columns are near `-1`. -/
def NearM (n : ℕ) (m : ℕ → ℕ → ℝ) (ε : ℝ) : Prop := ∀ r < n, ∀ c < n, |m r c - minusOne r c| ≤ ε

theorem NearM.diag {n : ℕ} {m : ℕ → ℕ → ℝ} {ε : ℝ} (h : NearM n m ε) (i : ℕ) (hi : i < n) : |m i i + 1| ≤ ε := by
  have := h i hi i hi
  simpa [minusOne] using this

theorem NearM.off {n : ℕ} {m : ℕ → ℕ → ℝ} {ε : ℝ} (h : NearM n m ε) {r c : ℕ} (hr : r < n) (hc : c < n) (hrc : r ≠ c) : |m r c| ≤ ε := by
  have := h r hr c hc
  simpa [minusOne, hrc] using this

theorem NearM.diag_ge {n : ℕ} {m : ℕ → ℕ → ℝ} {ε : ℝ} (h : NearM n m ε) (hε : ε ≤ 1 / 2) (i : ℕ) (hi : i < n) : 1 / 2 ≤ |m i i| ∧ m i i ≠ 0 := by
  have h1 := abs_le.1 (h.diag i hi)
  have : 1 / 2 ≤ |m i i| := by
    rw [abs_of_nonpos (by linarith)]
    linarith
  exact ⟨this, fun h0 => by rw [h0] at this; norm_num at this⟩

/-- comparison in ublas -/
noncomputable def leB (a b : ℝ) : Bool := decide (a ≤ b)

theorem luPivot_near {n : ℕ} {m : ℕ → ℕ → ℝ} {ε : ℝ} (h : NearM n m ε) (hε : ε ≤ 1 / 2) (i : ℕ) (hi : i < n) : luPivot (fun x => |x|) leB n m i = i := by
  unfold luPivot
  have key : ∀ l : List ℕ, (∀ r ∈ l, r < n) →
      l.foldl (fun p r => if i ≤ r ∧ leB |m r i| |m p i| = false then r else p) i = i := by
    intro l
    induction l with
    | nil => intro _; rfl
    | cons r l ih =>
      intro hl
      rw [List.foldl_cons]
      have : (if i ≤ r ∧ leB |m r i| |m i i| = false then r else i) = i := by
        by_cases hri : r = i
        · rw [hri]; simp
        · rw [if_neg]
          rintro ⟨-, h2⟩
          simp only [leB, decide_eq_false_iff_not, not_le] at h2
          have h3 := h.off (hl r (by simp)) hi hri
          have h4 := (h.diag_ge hε i hi).1
          linarith
      rw [this]
      exact ih fun r hr => hl r (by simp [hr])
  exact key _ fun r hr => List.mem_range.1 hr

theorem luStage_near {n : ℕ} {m : ℕ → ℕ → ℝ} {ε : ℝ} (h : NearM n m ε) (hε0 : 0 ≤ ε) (hε : ε ≤ 1 / 2) (i : ℕ) (hi : i < n) :
    ∃ m', luStage (fun x => |x|) leB n (m, id, false) i = (m', id, false) ∧ NearM n m' (2 * ε) := by
  have hp := luPivot_near h hε i hi
  obtain ⟨d1, d2⟩ := h.diag_ge hε i hi
  refine ⟨fun r c => if i < r ∧ i < c then m r c - m r i * (1 / m i i) * m i c else if i < r ∧ c = i then m r i * (1 / m i i) else m r c, ?_, ?_⟩
  · have hm1 : ∀ r c, (if r = i then m i c else if r = i then m i c else m r c) = m r c := by
      intro r c
      by_cases hr : r = i
      · simp [hr]
      · simp [hr]
    unfold luStage
    simp only [hp]
    rw [if_neg d2]
    simp only [hm1]
    refine Prod.ext ?_ (Prod.ext ?_ rfl)
    · funext r c
      dsimp only
      by_cases h1 : i < r ∧ i < c
      · have h2 : ¬ c = i := by omega
        simp only [h1, h2, and_self, and_true, and_false, if_true, if_false]
      · simp only [h1, if_true, if_false]
    · funext k
      simp
  · have hinv : |1 / m i i| ≤ 2 := by
      rw [abs_div, abs_one, div_le_iff₀ (by linarith)]
      linarith
    have hcol : ∀ r < n, i < r → |m r i * (1 / m i i)| ≤ 2 * ε := by
      intro r hr hir
      rw [abs_mul]
      have := h.off hr hi (by omega : r ≠ i)
      nlinarith [abs_nonneg (m r i), abs_nonneg (1 / m i i)]
    intro r hr c hc
    dsimp only
    by_cases h1 : i < r ∧ i < c
    · rw [if_pos h1]
      have e1 := h r hr c hc
      have e2 := hcol r hr h1.1
      have e3 := h.off hi hc (by omega : i ≠ c)
      have e4 : m r c - m r i * (1 / m i i) * m i c - minusOne r c = (m r c - minusOne r c) - m r i * (1 / m i i) * m i c := by ring
      rw [e4]
      refine (abs_sub _ _).trans ?_
      rw [abs_mul (m r i * (1 / m i i))]
      have e5 := mul_le_mul e2 e3 (abs_nonneg _) (by linarith)
      nlinarith
    · rw [if_neg h1]
      by_cases h2 : i < r ∧ c = i
      · rw [if_pos h2, minusOne, if_neg (by omega), sub_zero]
        exact hcol r hr h2.1
      · rw [if_neg h2]
        exact (h r hr c hc).trans (by linarith)

theorem luFactor_near {n : ℕ} {ε : ℝ} (hε0 : 0 ≤ ε) (m : ℕ → ℕ → ℝ) (h : NearM n m ε) : ∀ k ≤ n, 2 ^ k * ε ≤ 1 / 2 →
    ∃ m', (List.range k).foldl (luStage (fun x => |x|) leB n) (m, id, false) = (m', id, false) ∧ NearM n m' (2 ^ k * ε) := by
  intro k
  induction k with
  | zero => intro _ _; exact ⟨m, rfl, by simpa using h⟩
  | succ k ih =>
    intro hk hk2
    have h0 : 0 ≤ 2 ^ k * ε := by positivity
    have h1 : 2 ^ (k + 1) * ε = 2 * (2 ^ k * ε) := by ring
    obtain ⟨m', e1, e2⟩ := ih (by omega) (by linarith)
    obtain ⟨m'', e3, e4⟩ := luStage_near e2 h0 (by linarith) k (by omega)
    refine ⟨m'', ?_, by rw [h1]; exact e4⟩
    rw [List.range_succ, List.foldl_append, e1, List.foldl_cons, List.foldl_nil, e3]

theorem luSwap_id (n : ℕ) (v : ℕ → ℝ) : luSwap n id v = v := by
  unfold luSwap
  induction n generalizing v with
  | zero => rfl
  | succ n ih =>
    rw [List.range_succ, List.foldl_append, ih, List.foldl_cons, List.foldl_nil]
    funext k
    simp only [id]
    split
    · rename_i h; rw [h]
    · rfl

theorem luLower_near {n : ℕ} {m : ℕ → ℕ → ℝ} {ε β : ℝ} (h : NearM n m ε) (hε0 : 0 ≤ ε) (hε : ε ≤ 1 / 2) (hβ : 0 ≤ β) (v : ℕ → ℝ) (hv : ∀ r < n, |v r| ≤ β) :
    ∀ k ≤ n, ∀ r < n,
      |(List.range k).foldl (fun v c r => if c < r then v r - v c * m r c else v r) v r| ≤ 2 ^ k * β ∧
      |(List.range k).foldl (fun v c r => if c < r then v r - v c * m r c else v r) v r - v r| ≤ 2 ^ k * (ε * β) := by
  intro k
  induction k with
  | zero =>
    intro _ r hr
    simp only [List.range_zero, List.foldl_nil, pow_zero, one_mul, sub_self, abs_zero]
    exact ⟨hv r hr, by positivity⟩
  | succ k ih =>
    intro hk r hr
    rw [List.range_succ, List.foldl_append, List.foldl_cons, List.foldl_nil]
    obtain ⟨a1, a2⟩ := ih (by omega) r hr
    obtain ⟨b1, -⟩ := ih (by omega) k (by omega)
    generalize (List.range k).foldl (fun v c r => if c < r then v r - v c * m r c else v r) v = u at a1 a2 b1 ⊢
    have hp : (0 : ℝ) ≤ 2 ^ k * β := by positivity
    have hp2 : (0 : ℝ) ≤ 2 ^ k * (ε * β) := by positivity
    have e1 : (2 : ℝ) ^ (k + 1) * β = 2 ^ k * β + 2 ^ k * β := by ring
    have e2 : (2 : ℝ) ^ (k + 1) * (ε * β) = 2 ^ k * (ε * β) + 2 ^ k * β * ε := by ring
    rw [e1, e2]
    by_cases hkr : k < r
    · rw [if_pos hkr]
      have h3 : |u k * m r k| ≤ 2 ^ k * β * ε := by
        rw [abs_mul]
        exact mul_le_mul b1 (h.off hr (by omega) (by omega)) (abs_nonneg _) hp
      constructor
      · refine (abs_sub _ _).trans (add_le_add a1 (h3.trans ?_))
        nlinarith
      · have : u r - u k * m r k - v r = (u r - v r) - u k * m r k := by ring
        rw [this]
        exact (abs_sub _ _).trans (add_le_add a2 h3)
    · rw [if_neg hkr]
      exact ⟨a1.trans (by linarith), a2.trans (by linarith [mul_nonneg hp hε0])⟩

theorem luUpper_near {n : ℕ} {m : ℕ → ℕ → ℝ} {ε β : ℝ} (h : NearM n m ε) (hε0 : 0 ≤ ε) (hε : ε ≤ 1 / 2) (hβ : 0 ≤ β) (v0 : ℕ → ℝ) :
    ∀ k ≤ n, ∀ (v : ℕ → ℝ) (G : ℝ), 0 ≤ G → (∀ r < n, |v r| ≤ G * β) → (∀ r < n, |v r - (if r < k then v0 r else -v0 r)| ≤ G * (ε * β)) → ∀ r < n,
      |(List.range k).reverse.foldl (fun v c r => if r = c then v c / m c c else if r < c then v r - v c / m c c * m r c else v r) v r + v0 r| ≤
        4 ^ k * G * (ε * β) := by
  intro k
  induction k with
  | zero =>
    intro _ v G _ _ h2 r hr
    have := h2 r hr
    simpa using this
  | succ k ih =>
    intro hk v G hG h1 h2 r hr
    rw [List.range_succ, List.reverse_append, List.reverse_cons, List.reverse_nil, List.nil_append, List.singleton_append, List.foldl_cons]
    have e4 : (4 : ℝ) ^ (k + 1) * G = 4 ^ k * (4 * G) := by ring
    rw [e4]
    obtain ⟨d1, d2⟩ := h.diag_ge hε k (by omega)
    have hGβ : 0 ≤ G * β := by positivity
    have hGε : 0 ≤ G * (ε * β) := by positivity
    have hq : |v k / m k k| ≤ 2 * (G * β) := by
      rw [abs_div, div_le_iff₀ (by linarith)]
      have := h1 k (by omega)
      nlinarith
    have hq2 : |v k / m k k + v k| ≤ 2 * (G * (ε * β)) := by
      have e : v k / m k k + v k = v k / m k k * (m k k + 1) := by rw [mul_add, div_mul_cancel₀ _ d2]; ring
      rw [e, abs_mul]
      calc _ ≤ 2 * (G * β) * ε := mul_le_mul hq (h.diag k (by omega)) (abs_nonneg _) (by positivity)
        _ = _ := by ring
    have hq3 : ∀ r < n, r < k → |v k / m k k * m r k| ≤ 2 * (G * (ε * β)) := by
      intro r hr hrk
      rw [abs_mul]
      calc _ ≤ 2 * (G * β) * ε := mul_le_mul hq (h.off hr (by omega) (by omega)) (abs_nonneg _) (by positivity)
        _ = _ := by ring
    have hle : G * (ε * β) ≤ G * β := by
      refine mul_le_mul_of_nonneg_left ?_ hG
      nlinarith
    refine ih (by omega) _ (4 * G) (by positivity) ?_ ?_ r hr
    · intro r hr
      by_cases hrk : r = k
      · rw [if_pos hrk]
        linarith
      · rw [if_neg hrk]
        by_cases hrk2 : r < k
        · rw [if_pos hrk2]
          refine (abs_sub _ _).trans ?_
          have := h1 r hr
          have := hq3 r hr hrk2
          linarith
        · rw [if_neg hrk2]
          have := h1 r hr
          linarith
    · intro r hr
      have h2r := h2 r hr
      by_cases hrk : r = k
      · subst hrk
        rw [if_pos rfl, if_neg (lt_irrefl r)]
        rw [if_pos (by omega)] at h2r
        have e : v r / m r r - -v0 r = (v r / m r r + v r) - (v r - v0 r) := by ring
        rw [e]
        refine (abs_sub _ _).trans ?_
        linarith
      · rw [if_neg hrk]
        by_cases hrk2 : r < k
        · rw [if_pos hrk2, if_pos hrk2]
          rw [if_pos (by omega)] at h2r
          have e : v r - v k / m k k * m r k - v0 r = (v r - v0 r) - v k / m k k * m r k := by ring
          rw [e]
          refine (abs_sub _ _).trans ?_
          have := hq3 r hr hrk2
          linarith
        · rw [if_neg hrk2, if_neg hrk2]
          rw [if_neg (by omega)] at h2r
          linarith

/-- ublas near `-1`. -/
theorem ublasLu_near (n : ℕ) : (ublasLu (fun x : ℝ => |x|) leB n).NearMinusOne (2 ^ n * (8 ^ n + 2 ^ n)) (1 / 2 ^ (n + 1)) := by
  intro ε hε m hm
  by_cases hn : n = 0
  · subst hn
    refine ⟨m, ?_, fun i => i.elim0, fun b => ?_⟩
    · simp only [ublasLu, List.range_zero, List.foldl_nil, Bool.false_eq_true, if_false]
      congr 2
      exact Subsingleton.elim _ _
    · have : (ublasLu (fun x : ℝ => |x|) leB 0).substitute m (ublasLu (fun x : ℝ => |x|) leB 0).start b + b = 0 := Subsingleton.elim _ _
      have h2 : b = 0 := Subsingleton.elim _ _
      rw [this, h2, norm_zero, mul_zero]
  have hn0 : 0 < n := Nat.pos_of_ne_zero hn
  have hε0 : 0 ≤ ε := (abs_nonneg _).trans (hm ⟨0, hn0⟩ ⟨0, hn0⟩)
  have hε2 : 2 ^ n * ε ≤ 1 / 2 := by
    rw [le_div_iff₀ (by positivity)] at hε
    rw [pow_succ] at hε
    linarith
  set m0 : ℕ → ℕ → ℝ := fun i j => if h : i < n ∧ j < n then m ⟨i, h.1⟩ ⟨j, h.2⟩ else 0 with hm0
  have hnear : NearM n m0 ε := by
    intro r hr c hc
    have := hm ⟨r, hr⟩ ⟨c, hc⟩
    simp only [hm0, dif_pos (And.intro hr hc), minusOne]
    rw [Matrix.one_apply] at this
    simp only [Fin.mk.injEq] at this
    by_cases hrc : r = c
    · simpa [hrc] using this
    · simpa [hrc] using this
  obtain ⟨m1, e1, e2⟩ := luFactor_near hε0 m0 hnear n le_rfl hε2
  have hη0 : 0 ≤ 2 ^ n * ε := by positivity
  refine ⟨fun i j => m1 i j, ?_, ?_, ?_⟩
  · simp only [ublasLu, ← hm0, e1, Bool.false_eq_true, if_false]
  · intro i j
    have := e2 i i.2 j j.2
    have e3 : m1 i j - minusOne i j = m1 i j + (1 : Matrix (Fin n) (Fin n) ℝ) i j := by
      rw [Matrix.one_apply, minusOne]
      simp only [Fin.ext_iff]
      split
      · ring
      · ring
    rw [e3] at this
    refine this.trans ?_
    have h8 : (1 : ℝ) ≤ 8 ^ n + 2 ^ n := by
      have : (1 : ℝ) ≤ 8 ^ n := one_le_pow₀ (by norm_num)
      have : (0 : ℝ) ≤ 2 ^ n := by positivity
      linarith
    have : 2 ^ n * (8 ^ n + 2 ^ n) * ε = (8 ^ n + 2 ^ n) * (2 ^ n * ε) := by ring
    rw [this]
    exact le_mul_of_one_le_left hη0 h8
  · intro b
    have hc0 : 0 ≤ 2 ^ n * (8 ^ n + 2 ^ n) * ε * ‖b‖ := by positivity
    rw [pi_norm_le_iff_of_nonneg hc0]
    intro i
    set m2 : ℕ → ℕ → ℝ := fun i j => if h : i < n ∧ j < n then m1 (⟨i, h.1⟩ : Fin n) (⟨j, h.2⟩ : Fin n) else 0 with hm2
    have hnear2 : NearM n m2 (2 ^ n * ε) := by
      intro r hr c hc
      simp only [hm2, dif_pos (And.intro hr hc)]
      exact e2 r hr c hc
    have hb : ∀ r < n, |unFin b r| ≤ ‖b‖ := by
      intro r hr
      rw [unFin, dif_pos hr]
      exact norm_le_pi_norm b ⟨r, hr⟩
    have hlow := luLower_near hnear2 hη0 hε2 (norm_nonneg b) (unFin b) hb n le_rfl
    set v := luLower n m2 (unFin b) with hv
    have hup := luUpper_near hnear2 hη0 hε2 (norm_nonneg b) v n le_rfl v (2 ^ n) (by positivity) (fun r hr => (hlow r hr).1) (fun r hr => by
      rw [if_pos hr, sub_self, abs_zero]; positivity) i i.2
    have hlo := (hlow i i.2).2
    have hbi : unFin b i = b i := by simp [unFin]
    have hsub : (ublasLu (fun x : ℝ => |x|) leB n).substitute (fun i j => m1 i j) (ublasLu (fun x : ℝ => |x|) leB n).start b i = luUpper n m2 v i := by
      simp only [ublasLu, luSwap_id]
      rfl
    rw [Pi.add_apply, hsub, Real.norm_eq_abs]
    have e5 : luUpper n m2 v i + b i = (luUpper n m2 v i + v i) - (v i - b i) := by ring
    rw [e5]
    refine (abs_sub _ _).trans ?_
    rw [hbi] at hlo
    refine (add_le_add hup hlo).trans (le_of_eq ?_)
    have : (8 : ℝ) ^ n = 4 ^ n * 2 ^ n := by rw [← mul_pow]; norm_num
    rw [this]
    ring

end Verif
