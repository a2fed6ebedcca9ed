import Verif.Lemmas.BSeriesOrder
import Mathlib.Tactic.Linarith
import Mathlib.Tactic.Positivity

/-!
# The expansion of the stages of a Rosenbrock method in powers of the step size

`g_i = γ ( h f(x0 + sum_{j<i} a_ij g_j) + h f'(x0) g_i + sum_{j<i} c_ij g_j )`
-/

set_option linter.unusedSectionVars false

namespace Verif.BSeries
open Asymptotics Filter Topology Finset

/-! ## Weights -/

section Weights
variable {K : Type} [Field K]

/-- the solution `w` of `w_i = γ (b_i + sum_{j<i} c_ij w_j)` -/
def lowerSolve (γ : K) (c : ℕ → ℕ → K) (b : ℕ → K) (i : ℕ) : K :=
  γ * (b i + ∑ j : Fin i, c i j * lowerSolve γ c b j)
termination_by i
decreasing_by exact j.2

theorem lowerSolve_eq (γ : K) (c : ℕ → ℕ → K) (b : ℕ → K) (i : ℕ) :
    lowerSolve γ c b i = γ * (b i + ∑ j ∈ range i, c i j * lowerSolve γ c b j) := by
  rw [lowerSolve, Finset.sum_range]

/-- the weight that the Jacobian contributes: it grows a new root below a tree -/
def rootWeight (w : PTree Unit → K) : PTree Unit → K
  | .graft a (.leaf _) => w a
  | _ => 0

/-- the weights of the values of the right-hand side at the stages, and those of the stages -/
def rosPair (γ : K) (a c : ℕ → ℕ → K) : PTree Unit → (ℕ → K) × (ℕ → K)
  | .leaf _ => (fun _ => 1, lowerSolve γ c fun _ => 1)
  | .graft s r =>
      let F : ℕ → K := fun i => (∑ j ∈ range i, a i j * (rosPair γ a c s).2 j) * (rosPair γ a c r).1 i
      (F, lowerSolve γ c fun i => F i + match r with
        | .leaf _ => (rosPair γ a c s).2 i
        | .graft _ _ => 0)

/-- the weight of a tree in stage `i` -/
def rosTree (γ : K) (a c : ℕ → ℕ → K) (τ : PTree Unit) (i : ℕ) : K := (rosPair γ a c τ).2 i

theorem rosPair_fst (γ : K) (a c : ℕ → ℕ → K) (i : ℕ) (τ : PTree Unit) :
    (rosPair γ a c τ).1 i = weight () (fun s => ∑ j ∈ range i, a i j * rosTree γ a c s j) τ := by
  induction τ with
  | leaf => simp [rosPair, weight]
  | graft s r _ hr => simp only [rosPair, weight, hr]; rfl

theorem rosTree_eq (γ : K) (a c : ℕ → ℕ → K) (i : ℕ) (τ : PTree Unit) :
    rosTree γ a c τ i = γ * (weight () (fun s => ∑ j ∈ range i, a i j * rosTree γ a c s j) τ +
      rootWeight (fun s => rosTree γ a c s i) τ + ∑ j ∈ range i, c i j * rosTree γ a c τ j) := by
  rw [← rosPair_fst]
  cases τ with
  | leaf =>
    simp only [rosTree, rosPair, rootWeight, add_zero]
    exact lowerSolve_eq γ c _ i
  | graft s r =>
    simp only [rosTree, rosPair]
    rw [lowerSolve_eq]
    cases r <;> rfl

end Weights

section
variable {V : Type*} [NormedAddCommGroup V] [NormedSpace ℝ V]

theorem Exp.clm {y : ℝ → V} {c : ℕ → V} {n : ℕ} (L : V →L[ℝ] V) (h : Exp y c n) : Exp (fun x => L (y x)) (fun s => L (c s)) n := by
  unfold Exp at *
  refine (L.isBigO_comp _ (𝓝 0) |>.trans h).congr_left fun x => ?_
  simp only [map_sub, map_sum, map_smul]

theorem Exp.add {y z : ℝ → V} {c d : ℕ → V} {n : ℕ} (h : Exp y c n) (h' : Exp z d n) :
    Exp (fun x => y x + z x) (fun s => c s + d s) n := by
  unfold Exp at *
  refine (IsBigO.add h h').congr_left fun x => ?_
  simp only [smul_add, Finset.sum_add_distrib]
  abel

theorem Exp.smul {y : ℝ → V} {c : ℕ → V} {n : ℕ} (a : ℝ) (h : Exp y c n) : Exp (fun x => a • y x) (fun s => a • c s) n := by
  unfold Exp at *
  refine (h.const_smul_left a).congr_left fun x => ?_
  simp only [Pi.smul_apply]
  rw [smul_sub, Finset.smul_sum]
  congr 1
  exact Finset.sum_congr rfl fun s _ => smul_comm _ _ _

/-- an implicit equation `g = γ (R + h J g)` -/
theorem Exp.solve {g R : ℝ → V} {r c : ℕ → V} {N : ℕ} (γ : ℝ) (J : V →L[ℝ] V)
    (hg : ∀ᶠ h in 𝓝 (0 : ℝ), g h = γ • (R h + h • J (g h))) (hR : Exp R r N) (r0 : r 0 = 0) (c0 : c 0 = 0)
    (hc : ∀ s, s < N → c (s + 1) = γ • (r (s + 1) + J (c s))) : Exp g c N := by
  have base : Exp g c 0 := by
    have h1 := hR.isBigO_id r0
    have h2 : g =O[𝓝 0] R := by
      have hs : ∀ᶠ h in 𝓝 (0 : ℝ), |γ| * (|h| * ‖J‖) ≤ 1 / 2 := by
        have : Tendsto (fun h : ℝ => |γ| * (|h| * ‖J‖)) (𝓝 0) (𝓝 (|γ| * (|(0 : ℝ)| * ‖J‖))) := by
          have : Continuous fun h : ℝ => |γ| * (|h| * ‖J‖) := by fun_prop
          exact this.tendsto 0
        simp only [abs_zero, zero_mul, mul_zero] at this
        exact (this.eventually (gt_mem_nhds (by norm_num : (0 : ℝ) < 1 / 2))).mono fun _ h => h.le
      refine IsBigO.of_bound (2 * |γ|) ?_
      filter_upwards [hg, hs] with h h1 h2
      have h3 : ‖g h‖ ≤ |γ| * (‖R h‖ + |h| * (‖J‖ * ‖g h‖)) := by
        conv_lhs => rw [h1]
        rw [norm_smul, Real.norm_eq_abs]
        refine mul_le_mul_of_nonneg_left ((norm_add_le _ _).trans ?_) (abs_nonneg _)
        rw [norm_smul, Real.norm_eq_abs]
        exact add_le_add le_rfl (mul_le_mul_of_nonneg_left (J.le_opNorm _) (abs_nonneg _))
      have h4 : |γ| * (|h| * ‖J‖) * ‖g h‖ ≤ 1 / 2 * ‖g h‖ := mul_le_mul_of_nonneg_right h2 (norm_nonneg _)
      nlinarith
    unfold Exp
    simpa [c0] using h2.trans h1
  have step : ∀ n, n ≤ N → Exp g c n := by
    intro n
    induction n with
    | zero => exact fun _ => base
    | succ n ih =>
      intro hn
      have h1 := ((ih (by omega)).clm J).shift
      have h2 := ((hR.mono hn).add h1).smul γ
      refine h2.congr' (hg.mono fun h hh => hh.symm) fun s hs => ?_
      cases s with
      | zero => simp [r0, c0]
      | succ s => exact (hc s (by omega)).symm
  exact step N le_rfl

/-- the Jacobian as part of the Taylor polynomial -/
def IsLinearPart (p : FormalMultilinearSeries ℝ V V) (J : V →L[ℝ] V) : Prop := ∀ v, app p [v] = J v

theorem tsum_root {P : Unit → List V → V} (J : V →ₗ[ℝ] V) (hJ : ∀ v, P () [v] = J v) (w : PTree Unit → ℝ) (s : ℕ) :
    J (tsum s fun τ => w τ • elem P τ) = tsum (s + 1) fun τ => rootWeight w τ • elem P τ := by
  rw [tsum_map, tsum_succ, Finset.sum_range_succ, Finset.sum_eq_zero, zero_add, Nat.sub_self]
  · refine tsum_congr s fun a _ => ?_
    rw [tsum_zero]
    simp [rootWeight, elem, diff, hJ]
  · intro u hu
    have := Finset.mem_range.1 hu
    have z : ∀ q, (tsum q fun _ : PTree Unit => (0 : V)) = 0 := by
      intro q
      have := tsum_smul q (0 : ℝ) (fun _ : PTree Unit => (0 : V))
      simpa using this.symm
    rw [← z u]
    refine tsum_congr u fun a _ => ?_
    rw [← z (s - u)]
    refine tsum_congr _ fun r hr => ?_
    cases r with
    | leaf => simp only [PTree.size] at hr; omega
    | graft => simp [rootWeight]

/-- the coefficients of a curve with given weights -/
noncomputable def tcoef (p : FormalMultilinearSeries ℝ V V) (w : PTree Unit → ℝ) : ℕ → V
  | 0 => 0
  | s + 1 => tsum s fun τ => w τ • elem (fun _ => app p) τ

theorem tcoef_sum (p : FormalMultilinearSeries ℝ V V) {α : Type*} (S : Finset α) (b : α → ℝ) (w : α → PTree Unit → ℝ) (s : ℕ) :
    ∑ j ∈ S, b j • tcoef p (w j) s = tcoef p (fun τ => ∑ j ∈ S, b j * w j τ) s := by
  cases s with
  | zero => simp [tcoef]
  | succ s => simp only [tcoef, tsum_smul, ← tsum_finset, Finset.sum_smul, smul_smul]

theorem tcoef_two (p : FormalMultilinearSeries ℝ V V) (a b : ℝ) (w w' : PTree Unit → ℝ) (s : ℕ) :
    a • tcoef p w s + b • tcoef p w' s = tcoef p (fun τ => a * w τ + b * w' τ) s := by
  have := tcoef_sum p (Finset.univ : Finset Bool) (fun i => if i then a else b) (fun i => if i then w else w') s
  simpa using this

theorem tcoef_pow (p : FormalMultilinearSeries ℝ V V) (a : ℝ) (w : PTree Unit → ℝ) (s : ℕ) :
    a ^ s • tcoef p w s = tcoef p (fun τ => a ^ τ.size * w τ) s := by
  cases s with
  | zero => simp [tcoef]
  | succ s =>
    simp only [tcoef, tsum_smul, smul_smul]
    exact tsum_congr s fun τ hτ => by rw [hτ]

/-- the expansion of the stages -/
theorem ros_stage_expand {f : V → V} {p : FormalMultilinearSeries ℝ V V} {x0 : V} {N : ℕ} (hf : TaylorAt f p x0 (N + 1))
    {J : V →L[ℝ] V} (hJ : IsLinearPart p J) (γ : ℝ) (a c : ℕ → ℕ → ℝ) (n : ℕ) {g : ℕ → ℝ → V}
    (hg : ∀ i, i < n → ∀ᶠ h in 𝓝 (0 : ℝ), g i h = γ • ((h • f (x0 + ∑ j ∈ range i, a i j • g j h) + ∑ j ∈ range i, c i j • g j h)
      + h • J (g i h))) :
    ∀ i, i < n → Exp (g i) (tcoef p fun τ => rosTree γ a c τ i) (N + 1) := by
  intro i
  induction i using Nat.strong_induction_on with
  | _ i ih =>
    intro hi
    have hj : ∀ j ∈ range i, Exp (g j) (tcoef p fun τ => rosTree γ a c τ j) (N + 1) := fun j hj =>
      ih j (Finset.mem_range.1 hj) (by have := Finset.mem_range.1 hj; omega)
    have h1 : Exp (fun h => ∑ j ∈ range i, a i j • g j h) (tcoef p fun τ => ∑ j ∈ range i, a i j * rosTree γ a c τ j) (N + 1) :=
      (Exp.sum (range i) hj (a i)).congr (fun _ => rfl) fun s _ => tcoef_sum p _ _ _ s
    have h2 : Exp (fun h => ∑ j ∈ range i, c i j • g j h) (tcoef p fun τ => ∑ j ∈ range i, c i j * rosTree γ a c τ j) (N + 1) :=
      (Exp.sum (range i) hj (c i)).congr (fun _ => rfl) fun s _ => tcoef_sum p _ _ _ s
    have h3 := (comp_expand hf rfl (h1.mono (Nat.le_succ N))).shift
    refine Exp.solve γ J (hg i hi) (h3.add h2) (by simp [tcoef]) rfl fun s hs => ?_
    have e1 := coef_trees (ι := Unit) (P := fun _ => app p) (fun _ => app_form p) ()
      (c := tcoef p fun τ => ∑ j ∈ range i, a i j * rosTree γ a c τ j)
      (w := fun s => ∑ j ∈ range i, a i j * rosTree γ a c s j) N (fun u _ => rfl) s (by omega) []
    have e2 : J (tcoef p (fun τ => rosTree γ a c τ i) s) =
          tsum s fun τ => rootWeight (fun s => rosTree γ a c s i) τ • elem (fun _ => app p) τ := by
      cases s with
      | zero => simp [tsum_zero, rootWeight, tcoef]
      | succ s => exact tsum_root (P := fun _ => app p) J.toLinearMap hJ _ s
    have add : ∀ u v : PTree Unit → V, tsum s u + tsum s v = tsum s fun τ => u τ + v τ := by
      intro u v
      have := tsum_finset (Finset.univ : Finset Bool) s (fun b τ => if b then u τ else v τ)
      simpa using this.symm
    simp only [e1, e2]
    simp only [tcoef]
    rw [add, add, tsum_smul]
    refine tsum_congr s fun τ _ => ?_
    rw [rosTree_eq]
    unfold elem
    rw [← add_smul, ← add_smul, smul_smul]
    congr 1
    ring

/-! ## Bounds -/

theorem norm_tsum_le (q : ℕ) : ∀ g : PTree Unit → V, ‖tsum q g‖ ≤ tsum q fun τ => ‖g τ‖ := by
  induction q using Nat.strong_induction_on with
  | _ q ih =>
    intro g
    cases q with
    | zero => rw [tsum_zero, tsum_zero]; exact norm_sum_le _ _
    | succ q =>
      rw [tsum_succ, tsum_succ]
      refine (norm_sum_le _ _).trans (Finset.sum_le_sum fun s hs => ?_)
      have := Finset.mem_range.1 hs
      refine (ih s (by omega) _).trans ?_
      have mono : ∀ q (u v : PTree Unit → ℝ), (∀ τ, u τ ≤ v τ) → tsum q u ≤ tsum q v := by
        intro q
        induction q using Nat.strong_induction_on with
        | _ q ih =>
          intro u v h
          cases q with
          | zero => rw [tsum_zero, tsum_zero]; exact Finset.sum_le_sum fun c _ => h _
          | succ q =>
            rw [tsum_succ, tsum_succ]
            refine Finset.sum_le_sum fun s hs => ?_
            have := Finset.mem_range.1 hs
            exact ih s (by omega) _ _ fun a => ih (q - s) (by omega) _ _ fun r => h _
      exact mono s _ _ fun a => ih (q - s) (by omega) _

theorem tsum_mono (q : ℕ) : ∀ {u v : PTree Unit → ℝ}, (∀ τ, τ.size = q + 1 → u τ ≤ v τ) → tsum q u ≤ tsum q v := by
  induction q using Nat.strong_induction_on with
  | _ q ih =>
    intro u v h
    cases q with
    | zero => rw [tsum_zero, tsum_zero]; exact Finset.sum_le_sum fun c _ => h _ rfl
    | succ q =>
      rw [tsum_succ, tsum_succ]
      refine Finset.sum_le_sum fun s hs => ?_
      have := Finset.mem_range.1 hs
      refine ih s (by omega) fun a ha => ih (q - s) (by omega) fun r hr => h _ ?_
      simp only [PTree.size]
      omega

/-- the number of trees with at most four nodes is at most five -/
theorem tsum_const (q : ℕ) (hq : q ≤ 3) (B : ℝ) (hB : 0 ≤ B) : (tsum q fun _ : PTree Unit => B) ≤ 5 * B := by
  have t0 : ∀ B : ℝ, (tsum 0 fun _ : PTree Unit => B) = B := fun B => by simp [tsum_zero]
  have t1 : ∀ B : ℝ, (tsum 1 fun _ : PTree Unit => B) = B := fun B => by
    rw [tsum_succ]; simp [t0]
  have t2 : ∀ B : ℝ, (tsum 2 fun _ : PTree Unit => B) = 2 * B := fun B => by
    rw [tsum_succ]; simp [Finset.sum_range_succ, t0, t1]; ring
  have t3 : ∀ B : ℝ, (tsum 3 fun _ : PTree Unit => B) = 5 * B := fun B => by
    rw [tsum_succ]; simp [Finset.sum_range_succ, t0, t1, t2]; ring
  interval_cases q
  · rw [t0]; linarith
  · rw [t1]; linarith
  · rw [t2]; linarith
  · rw [t3]

/-- elementary differentials of trees with at most four nodes -/
theorem norm_diff_le {p : FormalMultilinearSeries ℝ V V} {m : ℝ} (hm : ∀ k, k ≤ 3 → ‖p k‖ ≤ m) (τ : PTree Unit) :
    ∀ acc : List V, acc.length + τ.size ≤ 4 →
      ‖diff (fun _ => app p) τ acc‖ ≤ m ^ τ.size * (acc.map fun v => ‖v‖).prod := by
  have m0 : 0 ≤ m := (norm_nonneg _).trans (hm 0 (by omega))
  induction τ with
  | leaf =>
    intro acc h
    simp only [PTree.size] at h ⊢
    simp only [diff, pow_one]
    have key : ∀ l : List V, ‖app p l‖ ≤ ‖p l.length‖ * (l.map fun v => ‖v‖).prod := by
      intro l
      refine ((p l.length).le_opNorm _).trans (le_of_eq ?_)
      congr 1
      rw [← List.prod_ofFn]
      congr 1
      refine List.ext_getElem (by simp) fun i h1 h2 => ?_
      simp
    refine (key acc).trans (mul_le_mul_of_nonneg_right (hm _ (by omega)) ?_)
    refine List.prod_nonneg fun x hx => ?_
    obtain ⟨v, -, rfl⟩ := List.mem_map.1 hx
    exact norm_nonneg v
  | graft a r ha hr =>
    intro acc h
    simp only [PTree.size] at h ⊢
    have := a.size_pos
    have := r.size_pos
    simp only [diff]
    refine (hr _ (by simp; omega)).trans ?_
    rw [List.map_append, List.prod_append]
    simp only [List.map_cons, List.map_nil, List.prod_cons, List.prod_nil, mul_one]
    have h1 := ha [] (by simp; omega)
    simp only [List.map_nil, List.prod_nil, mul_one] at h1
    have h2 : 0 ≤ (acc.map fun v => ‖v‖).prod := by
      refine List.prod_nonneg fun x hx => ?_
      obtain ⟨v, -, rfl⟩ := List.mem_map.1 hx
      exact norm_nonneg v
    calc m ^ r.size * ((acc.map fun v => ‖v‖).prod * ‖diff (fun _ => app p) a []‖)
        ≤ m ^ r.size * ((acc.map fun v => ‖v‖).prod * m ^ a.size) := by gcongr
      _ = m ^ (a.size + r.size) * (acc.map fun v => ‖v‖).prod := by rw [pow_add]; ring

/-- the coefficients of an expansion whose weights are small -/
theorem norm_tsum_small {p : FormalMultilinearSeries ℝ V V} {m δ : ℝ} (hm : ∀ k, k ≤ 3 → ‖p k‖ ≤ m) (w : PTree Unit → ℝ) (q : ℕ) (hq : q ≤ 3)
    (hw : ∀ τ, τ.size = q + 1 → |w τ| ≤ δ) (hδ : 0 ≤ δ) : ‖tsum q fun τ => w τ • elem (fun _ => app p) τ‖ ≤ 5 * δ * m ^ (q + 1) := by
  have m0 : 0 ≤ m := (norm_nonneg _).trans (hm 0 (by omega))
  refine (norm_tsum_le q _).trans ((tsum_mono q (v := fun _ => δ * m ^ (q + 1)) fun τ hτ => ?_).trans ((tsum_const q hq _ (by positivity)).trans
    (le_of_eq (by ring))))
  rw [norm_smul, Real.norm_eq_abs]
  have := norm_diff_le hm τ [] (by simp; omega)
  simp only [List.map_nil, List.prod_nil, mul_one, hτ] at this
  exact mul_le_mul (hw τ hτ) this (norm_nonneg _) hδ

/-- all trees with at most four nodes -/
theorem trees_four {Q : PTree Unit → Prop} (n : ℕ) (hn : n ≤ 4) (h1 : 1 ≤ n → Q (.leaf ()))
    (h2 : 2 ≤ n → Q (.graft (.leaf ()) (.leaf ())))
    (h31 : 3 ≤ n → Q (.graft (.leaf ()) (.graft (.leaf ()) (.leaf ())))) (h32 : 3 ≤ n → Q (.graft (.graft (.leaf ()) (.leaf ())) (.leaf ())))
    (h41 : 4 ≤ n → Q (.graft (.leaf ()) (.graft (.leaf ()) (.graft (.leaf ()) (.leaf ())))))
    (h42 : 4 ≤ n → Q (.graft (.leaf ()) (.graft (.graft (.leaf ()) (.leaf ())) (.leaf ()))))
    (h43 : 4 ≤ n → Q (.graft (.graft (.leaf ()) (.leaf ())) (.graft (.leaf ()) (.leaf ()))))
    (h44 : 4 ≤ n → Q (.graft (.graft (.leaf ()) (.graft (.leaf ()) (.leaf ()))) (.leaf ())))
    (h45 : 4 ≤ n → Q (.graft (.graft (.graft (.leaf ()) (.leaf ())) (.leaf ())) (.leaf ()))) :
    ∀ τ : PTree Unit, τ.size ≤ n → Q τ := by
  have s1 : ∀ τ : PTree Unit, τ.size = 1 → τ = .leaf () := by
    intro τ h
    cases τ with
    | leaf => rfl
    | graft a r => have := a.size_pos; have := r.size_pos; simp only [PTree.size] at h; omega
  have s2 : ∀ τ : PTree Unit, τ.size = 2 → τ = .graft (.leaf ()) (.leaf ()) := by
    intro τ h
    cases τ with
    | leaf => simp [PTree.size] at h
    | graft a r =>
      have := a.size_pos; have := r.size_pos; simp only [PTree.size] at h
      rw [s1 a (by omega), s1 r (by omega)]
  have s3 : ∀ τ : PTree Unit, τ.size = 3 → τ = .graft (.leaf ()) (.graft (.leaf ()) (.leaf ())) ∨
      τ = .graft (.graft (.leaf ()) (.leaf ())) (.leaf ()) := by
    intro τ h
    cases τ with
    | leaf => simp [PTree.size] at h
    | graft a r =>
      have := a.size_pos; have := r.size_pos; simp only [PTree.size] at h
      rcases (by omega : a.size = 1 ∨ a.size = 2) with h1 | h1
      · rw [s1 a h1, s2 r (by omega)]; exact .inl rfl
      · rw [s2 a h1, s1 r (by omega)]; exact .inr rfl
  intro τ hτ
  have := τ.size_pos
  rcases (by omega : τ.size = 1 ∨ τ.size = 2 ∨ τ.size = 3 ∨ τ.size = 4) with h | h | h | h
  · rw [s1 τ h]; exact h1 (by omega)
  · rw [s2 τ h]; exact h2 (by omega)
  · rcases s3 τ h with e | e <;> rw [e]
    · exact h31 (by omega)
    · exact h32 (by omega)
  · cases τ with
    | leaf => simp [PTree.size] at h
    | graft a r =>
      have := a.size_pos; have := r.size_pos; simp only [PTree.size] at h hτ
      rcases (by omega : a.size = 1 ∨ a.size = 2 ∨ a.size = 3) with h1 | h1 | h1
      · rw [s1 a h1]
        rcases s3 r (by omega) with e | e <;> rw [e]
        · exact h41 (by omega)
        · exact h42 (by omega)
      · rw [s2 a h1, s2 r (by omega)]; exact h43 (by omega)
      · rw [s1 r (by omega)]
        rcases s3 a (by omega) with e | e <;> rw [e]
        · exact h44 (by omega)
        · exact h45 (by omega)

end

end Verif.BSeries
