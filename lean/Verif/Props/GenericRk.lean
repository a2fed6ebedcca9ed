import Verif.Lemmas.Butcher
import Verif.Props.InPlace
import Mathlib.Tactic.FieldSimp
import Mathlib.Tactic.Ring
import Mathlib.Data.Int.Cast.Lemmas

/-!
# C30: the generic Runge-Kutta machinery computes the Butcher-tableau formula

Exact arithmetic: `K` a field, the states a vector space over `K` of any dimension.
-/

namespace Verif
variable {K V : Type} [Field K] [AddCommGroup V] [Module K V]

/-- C30: `do_step` of `explicit_generic_rk` with tableau `T`, in place (`out = x`) or not, writes
`x + dt sum b_i k_i`, where `k_i = f( x + dt sum_{j<i} a_ij k_j , t + c_i dt )`; the right-hand side is evaluated
exactly once per stage, in order, at exactly these points. -/
theorem generic_rk_step (T : Tableau K) (hT : T.WellFormed) (f : V → K → V) (x out : ℕ) (t dt : K)
    (h : Heap K V (List (V × K))) :
    ∃ (h' : Heap K V (List (V × K))) (k : ℕ → V),
      doStep3 (genericRkImpl T) (loggingSys f) (.user x) t (.user out) dt h = .ok () h' ∧
      T.IsStages f (h.state (.user x)) t dt k ∧
      h'.state (.user out) = T.result (h.state (.user x)) dt k ∧
      (∀ n, n ≠ out → h'.state (.user n) = h.state (.user n)) ∧
      h'.world = h.world ++ (List.range T.size).map fun i =>
        (T.stagePoint (h.state (.user x)) dt k i, T.stageTime t dt i) := by
  have H := doStep3_implements (.generic T) hT (loggingSys f) (.user x) (.user out) t dt h (ownedBy_user _ _)
  obtain ⟨ks, e1, e2, e3⟩ := rkAllStages_log T hT f (h.state (.user x)) t dt h.world
  have e : (loggingSys f (h.state (.user x)) t >>= fun k =>
      (ExplicitStepper.generic T).recipe (loggingSys f) (h.state (.user x)) k t dt) =
      (loggingSys f (h.state (.user x)) t >>= fun k1 => rkAllStages T (loggingSys f) (h.state (.user x)) k1 t dt) >>=
        fun ks => pure (rkResult T.b (h.state (.user x)) dt ks) := by
    simp only [bind_assoc]; rfl
  rw [e] at H
  unfold Implements at H
  rw [M.bind_ok e1] at H
  simp only [M.pure_apply] at H
  obtain ⟨h', a1, a2, a3⟩ := H
  refine ⟨h', fun m => ks.getD m 0, a1, e3, ?_, fun n hn => ?_, a2⟩
  · rw [(a3 (.user out) (ownedBy_user _ _)).1]
    simp [rkResult_exact T hT _ dt ks e2]
  · rw [(a3 (.user n) (ownedBy_user _ _)).1]
    exact Heap.set_state_ne _ _ (by simpa using hn)

/-- C30 for `explicit_error_generic_rk`: additionally the error estimate is `dt sum b2_i k_i`. -/
theorem generic_error_rk_step (T : Tableau K) (hT : T.WellFormed) (b2 : List K) (hb : b2.length = T.size)
    (f : V → K → V) (x out e : ℕ) (hne : out ≠ e) (t dt : K) (h : Heap K V (List (V × K))) :
    ∃ (h' : Heap K V (List (V × K))) (k : ℕ → V),
      doStep7 (genericErrRkImpl T b2) (loggingSys f) (.user x) t (.user out) dt (.user e) h = .ok () h' ∧
      T.IsStages f (h.state (.user x)) t dt k ∧
      h'.state (.user out) = T.result (h.state (.user x)) dt k ∧
      h'.state (.user e) = T.errorEstimate b2 dt k ∧
      h'.world = h.world ++ (List.range T.size).map fun i =>
        (T.stagePoint (h.state (.user x)) dt k i, T.stageTime t dt i) := by
  have H := doStep7_implements (.generic T b2) hT (loggingSys f) (.user x) (.user out) (.user e) t dt h
    (ownedBy_user _ _) (ownedBy_user _ _)
  obtain ⟨ks, e1, e2, e3⟩ := rkAllStages_log T hT f (h.state (.user x)) t dt h.world
  have e' : (loggingSys f (h.state (.user x)) t >>= fun k =>
      (ErrorStepper.generic T b2).errRecipe (loggingSys f) (h.state (.user x)) k t dt) =
      (loggingSys f (h.state (.user x)) t >>= fun k1 => rkAllStages T (loggingSys f) (h.state (.user x)) k1 t dt) >>=
        fun ks => pure (rkResult T.b (h.state (.user x)) dt ks, lin ((b2.map (· * dt)).zip ks)) := by
    simp only [bind_assoc]; rfl
  rw [e'] at H
  unfold Implements at H
  rw [M.bind_ok e1] at H
  simp only [M.pure_apply] at H
  obtain ⟨h', a1, a2, a3⟩ := H
  refine ⟨h', fun m => ks.getD m 0, a1, e3, ?_, ?_, a2⟩
  · rw [(a3 (.user out) (ownedBy_user _ _)).1]
    simp [rkResult_exact T hT _ dt ks e2, Heap.set_state_apply, hne]
  · rw [(a3 (.user e) (ownedBy_user _ _)).1]
    simp [rkError_exact T b2 hb dt ks e2]

variable {W : Type}

theorem rk4_recipe_eq : (rkStep rk4Tableau : Recipe K V W) = rk4ClassicStep := by
  funext sys x k1 t dt
  simp only [rkStep, rkAllStages, rk4Tableau, List.tail_cons, List.zip_cons_cons, List.zip_nil_right, rkStages,
    bind_assoc, pure_bind, rk4ClassicStep, List.map_cons, List.map_nil, List.cons_append, List.nil_append, rkResult]
  have t1 : t + frac 1 2 * dt = t + dt / lit 2 := by simp only [frac, lit]; push_cast; ring
  have t2 : t + lit 1 * dt = t + dt := by simp only [lit]; push_cast; ring
  rw [t1, t2]
  have a1 : (frac 1 2 : K) * dt = dt / lit 2 := by simp only [frac, lit]; push_cast; ring
  rw [a1]
  refine bind_congr fun k2 => ?_
  have l1 : (lin [((lit 1 : K), x), (lit 0 * dt, k1), (dt / lit 2, k2)] : V) = lin [((lit 1 : K), x), (dt / lit 2, k2)] := by
    simp [lin_exact, lit]
  rw [l1]
  refine bind_congr fun k3 => ?_
  have l2 : (lin [((lit 1 : K), x), (lit 0 * dt, k1), (lit 0 * dt, k2), (lit 1 * dt, k3)] : V) = lin [((lit 1 : K), x), (dt, k3)] := by
    simp [lin_exact, lit]
  rw [l2]
  refine bind_congr fun k4 => ?_
  congr 1
  simp only [frac, lit]
  push_cast
  simp only [div_eq_mul_inv, mul_comm dt, one_mul]

/-- C30: `runge_kutta4` and `runge_kutta4_classic` agree, for every system function (also with side effects and
exceptions), in place and out of place. -/
theorem rk4_classic_agrees (sys : Sys K V W) (x out : ℕ) (t dt : K) (h : Heap K V W) :
    SameOutcome (doStep3 rk4Impl sys (.user x) t (.user out) dt h) (.user out)
      (doStep3 rk4ClassicImpl sys (.user x) t (.user out) dt h) (.user out) := by
  have h1 := doStep3_implements .rk4 trivial sys (.user x) (.user out) t dt h (ownedBy_user _ _)
  have h2 := doStep3_implements .rk4Classic trivial sys (.user x) (.user out) t dt h (ownedBy_user _ _)
  simp only [ExplicitStepper.recipe, rk4_recipe_eq] at h1 h2
  exact h1.sameOutcome h2 (ownedBy_user _ _) (ownedBy_user _ _) fun _ => rfl


theorem cashKarp_errRecipe_eq :
    (rkErrStep cashKarpTableau cashKarpDb : Recipe K V W (V × V)) = cashKarpClassicErrStep := by
  funext sys x k1 t dt
  simp only [rkErrStep, rkAllStages, cashKarpTableau, cashKarpDb, List.tail_cons, List.zip_cons_cons, List.zip_nil_right, rkStages,
    bind_assoc, pure_bind, cashKarpClassicErrStep, cashKarpClassicStages, List.map_cons, List.map_nil, List.cons_append, List.nil_append, rkResult,
    mul_comm dt]
  refine bind_congr fun k2 => bind_congr fun k3 => bind_congr fun k4 => bind_congr fun k5 => bind_congr fun k6 => ?_
  congr 2
  · simp [lin_exact, lit]
  · simp [lin_exact, lit]

theorem cashKarp_recipe_eq : (rkStep cashKarpTableau : Recipe K V W) = cashKarpClassicStep := by
  funext sys x k1 t dt
  have h1 := errRecipe_fst (.cashKarp : ErrorStepper K) sys x k1 t dt
  have h2 := errRecipe_fst (.cashKarpClassic : ErrorStepper K) sys x k1 t dt
  simp only [ErrorStepper.errRecipe, ErrorStepper.toExplicit, ExplicitStepper.recipe] at h1 h2
  rw [← h1, ← h2, cashKarp_errRecipe_eq]

/-- C30: `runge_kutta_cash_karp54` and `runge_kutta_cash_karp54_classic` agree, in the new state and in the error
estimate, for every system function. -/
theorem cash_karp_classic_agrees (sys : Sys K V W) (x out e : ℕ) (hne : out ≠ e) (t dt : K)
    (h : Heap K V W) :
    SameOutcome (doStep3 cashKarpImpl sys (.user x) t (.user out) dt h) (.user out)
      (doStep3 cashKarpClassicImpl sys (.user x) t (.user out) dt h) (.user out) ∧
    SameOutcome (doStep7 cashKarpErrImpl sys (.user x) t (.user out) dt (.user e) h) (.user out)
      (doStep7 cashKarpClassicErrImpl sys (.user x) t (.user out) dt (.user e) h) (.user out) ∧
    SameOutcome (doStep7 cashKarpErrImpl sys (.user x) t (.user out) dt (.user e) h) (.user e)
      (doStep7 cashKarpClassicErrImpl sys (.user x) t (.user out) dt (.user e) h) (.user e) := by
  have h1 := doStep3_implements .cashKarp trivial sys (.user x) (.user out) t dt h (ownedBy_user _ _)
  have h2 := doStep3_implements .cashKarpClassic trivial sys (.user x) (.user out) t dt h (ownedBy_user _ _)
  have h3 := doStep7_implements .cashKarp trivial sys (.user x) (.user out) (.user e) t dt h (ownedBy_user _ _) (ownedBy_user _ _)
  have h4 := doStep7_implements .cashKarpClassic trivial sys (.user x) (.user out) (.user e) t dt h (ownedBy_user _ _) (ownedBy_user _ _)
  simp only [ExplicitStepper.recipe, ErrorStepper.errRecipe, cashKarp_recipe_eq, cashKarp_errRecipe_eq] at h1 h2 h3 h4
  exact ⟨h1.sameOutcome h2 (ownedBy_user _ _) (ownedBy_user _ _) fun _ => rfl,
    h3.sameOutcome h4 (ownedBy_user _ _) (ownedBy_user _ _) fun _ => rfl,
    h3.sameOutcome h4 (ownedBy_user _ _) (ownedBy_user _ _) fun _ => rfl⟩

/-- Non-vacuity: the tableau of Heun's method satisfies the hypotheses, and so do the library's own. -/
example : (⟨[[1]], [1 / 2, 1 / 2], [0, 1]⟩ : Tableau ℚ).WellFormed :=
  ⟨rfl, rfl, fun i hi => by simp only [List.length_cons, List.length_nil] at hi; interval_cases i; rfl⟩
example : (fehlbergTableau : Tableau ℚ).WellFormed ∧ (fehlbergDb : List ℚ).length = (fehlbergTableau : Tableau ℚ).size :=
  ⟨fehlbergTableau_wf, rfl⟩

end Verif
