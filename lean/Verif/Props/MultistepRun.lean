import Verif.Spec.MultistepRun
import Verif.Props.Multistep
import Verif.Props.MultistepWitness

/-!
# C36: the sequence of states produced by the Adams steppers
-/

set_option linter.unusedSectionVars false

namespace Verif
variable {K V : Type}
variable [Add K] [Sub K] [Mul K] [Div K] [IntCast K] [Neg K] [StateOps K V]

/-- the derivatives the stepper remembers before step `n` -/
def pastOf (N : ℕ) (f : V → K → V) (X : ℕ → V) (T : ℕ → K) (n : ℕ) : List V :=
  (List.range (min n (N - 1))).map fun j => f (X (n - 1 - j)) (T (n - 1 - j))

theorem pastOf_length (N : ℕ) (f : V → K → V) (X : ℕ → V) (T : ℕ → K) (n : ℕ) :
    (pastOf N f X T n).length = min n (N - 1) := by simp [pastOf]

theorem cons_pastOf (N : ℕ) (f : V → K → V) (X : ℕ → V) (T : ℕ → K) (n : ℕ) :
    f (X n) (T n) :: pastOf N f X T n = (List.range (min n (N - 1) + 1)).map fun j => f (X (n - j)) (T (n - j)) := by
  rw [List.range_succ_eq_map, List.map_cons, List.map_map]
  simp only [pastOf, Nat.sub_zero]
  congr 1
  apply List.map_congr_left
  intro j _
  simp only [Function.comp, Nat.succ_eq_add_one]
  rw [show n - 1 - j = n - (j + 1) by omega]

theorem pastOf_succ (N : ℕ) (f : V → K → V) (X : ℕ → V) (T : ℕ → K) (n : ℕ) :
    (f (X n) (T n) :: pastOf N f X T n).take (N - 1) = pastOf N f X T (n + 1) := by
  rw [cons_pastOf, ← List.map_take, List.take_range]
  unfold pastOf
  rw [show min (N - 1) (min n (N - 1) + 1) = min (n + 1) (N - 1) by omega]
  simp

theorem cons_pastOf_full (N : ℕ) (hN : 0 < N) (f : V → K → V) (X : ℕ → V) (T : ℕ → K) (n : ℕ) (hn : N ≤ n + 1) :
    f (X n) (T n) :: pastOf N f X T n = lastDerivs N f X T n := by
  rw [cons_pastOf, lastDerivs, show min n (N - 1) + 1 = N by omega]

/-- one step on values -/
theorem ab_solution_step {N : ℕ} (hN : 0 < N) {coef : List K} {init : InitStepper K} {f : V → K → V} {X : ℕ → V}
    {T : ℕ → K} {dt : K} (hX : AbSolution N coef init f X T dt) (n : ℕ) :
    abValue N coef init (pureSys f) (pastOf N f X T n) (X n) (T n) dt () = .ok (X (n + 1), pastOf N f X T (n + 1)) () := by
  unfold abValue
  rw [M.bind_ok (show pureSys f (X n) (T n) () = .ok (f (X n) (T n)) () from rfl), pastOf_length, pastOf_succ]
  by_cases hlt : n + 1 < N
  · rw [if_pos (by omega), M.bind_ok (hX.start n hlt)]; rfl
  · rw [if_neg (by omega), cons_pastOf_full N hN f X T n (by omega), ← hX.step n (by omega)]; rfl

theorem abm_solution_step {N : ℕ} (hN : 0 < N) {cb cm : List K} {init : InitStepper K} {f : V → K → V} {X : ℕ → V}
    {T : ℕ → K} {dt : K} (hX : AbmSolution N cb cm init f X T dt) (n : ℕ) :
    abmValue N cb cm init (pureSys f) (pastOf N f X T n) (X n) (T n) dt () =
      .ok (X (n + 1), pastOf N f X T (n + 1)) () := by
  unfold abmValue
  rw [M.bind_ok (show pureSys f (X n) (T n) () = .ok (f (X n) (T n)) () from rfl), pastOf_length, pastOf_succ]
  by_cases hlt : n + 1 < N
  · rw [if_pos (by omega), M.bind_ok (hX.start n hlt)]; rfl
  · rw [if_neg (by omega), cons_pastOf_full N hN f X T n (by omega)]
    rw [hX.step n (by omega)]
    rfl

/-- running the steps, from any point of the history on -/
theorem adams_run_from {N : ℕ} {f : V → K → V} {X : ℕ → V} {T : ℕ → K} {os : List Owner} (x : ℕ) (n₀ : ℕ)
    (p : ℕ → StepM K V Unit Unit) (value : List V → V → K → M Unit (V × List V))
    (hp : ∀ n h, n₀ ≤ n → AdamsMemory N h (pastOf N f X T n) → AdamsOutcome os N h (.user x) (p n h)
      (value (pastOf N f X T n) (h.state (.user x)) (T n) h.world))
    (hv : ∀ n, n₀ ≤ n → value (pastOf N f X T n) (X n) (T n) () = .ok (X (n + 1), pastOf N f X T (n + 1)) ())
    (h : Heap K V Unit) (hm : AdamsMemory N h (pastOf N f X T n₀)) (hx : h.state (.user x) = X n₀) (n : ℕ) :
    ∃ h', repeatStep (fun i => p (n₀ + i)) n h = .ok () h' ∧ h'.state (.user x) = X (n₀ + n) ∧
      AdamsMemory N h' (pastOf N f X T (n₀ + n)) ∧ ∀ l, ¬ l.ownedBy os → l ≠ .user x → h.SameAt h' l := by
  induction n with
  | zero => exact ⟨h, rfl, hx, hm, fun l _ _ => Heap.SameAt.refl _ _⟩
  | succ n ih =>
    obtain ⟨h₁, e1, e2, e3, e4⟩ := ih
    have H := hp (n₀ + n) h₁ (by omega) e3
    rw [e2, show h₁.world = () from rfl, hv _ (by omega)] at H
    obtain ⟨h₂, b1, -, b3, b4, b5⟩ := H
    refine ⟨h₂, ?_, b3, b4, fun l hl hne => (e4 l hl hne).trans (b5 l hl hne)⟩
    unfold repeatStep
    rw [M.bind_ok e1, b1]

/-- **C36**: for a new `adams_bashforth<N>` stepper (or after `reset()`), whatever its buffer contains, `n` calls of
`do_step` in place at the times `T 0, ..., T (n-1)` lead to the state `X n`. -/
theorem adams_bashforth_run (N : ℕ) (coef : List K) (init : InitStepper K) (hw : init.WellFormed)
    (hip : init.inPlace = true) (f : V → K → V) (X : ℕ → V) (T : ℕ → K) (dt : K)
    (hX : AbSolution N coef init f X T dt) (h : Heap K V Unit) (hf : h.nat mFirst < N) (hc : h.nat mStepsInit = 0)
    (x : ℕ) (hx : h.state (.user x) = X 0) (n : ℕ) :
    ∃ h', repeatStep (fun i => abStep N coef init (pureSys f) false (.user x) (T i) (.user x) dt) n h = .ok () h' ∧
      h'.state (.user x) = X n ∧ ∀ y, y ≠ x → h'.state (.user y) = h.state (.user y) := by
  obtain ⟨h', a1, a2, a3, a4⟩ := adams_run_from (f := f) (X := X) (T := T) (os := abOwners) x 0
    (fun i => abStep N coef init (pureSys f) false (.user x) (T i) (.user x) dt)
    (fun past x t => abValue N coef init (pureSys f) past x t dt)
    (fun n h _ hm => abStep_value N coef init hw _ _ _ _ _ h _ hm (user_not_owned _ _) (user_not_owned _ _)
      fun _ => .inl hip)
    (fun n _ => ab_solution_step (by omega) hX n) h ⟨hf, by simp [hc, pastOf], by simp [pastOf]⟩ hx n
  simp only [Nat.zero_add] at a1 a2
  exact ⟨h', a1, a2, fun y hy => (a4 (.user y) (user_not_owned _ _) (by simpa using hy)).1⟩

/-- **C36** for `adams_bashforth_moulton<N>`. -/
theorem adams_bashforth_moulton_run (N : ℕ) (cb cm : List K) (hcm : cm.length ≤ N) (init : InitStepper K)
    (hw : init.WellFormed) (hip : init.inPlace = true) (f : V → K → V) (X : ℕ → V) (T : ℕ → K) (dt : K)
    (hX : AbmSolution N cb cm init f X T dt) (h : Heap K V Unit) (hf : h.nat mFirst < N) (hc : h.nat mStepsInit = 0)
    (x : ℕ) (hx : h.state (.user x) = X 0) (n : ℕ) :
    ∃ h', repeatStep (fun i => abmStep N cb cm init (pureSys f) false (.user x) (T i) (.user x) dt) n h = .ok () h' ∧
      h'.state (.user x) = X n ∧ ∀ y, y ≠ x → h'.state (.user y) = h.state (.user y) := by
  obtain ⟨h', a1, a2, a3, a4⟩ := adams_run_from (f := f) (X := X) (T := T) (os := abmOwners) x 0
    (fun i => abmStep N cb cm init (pureSys f) false (.user x) (T i) (.user x) dt)
    (fun past x t => abmValue N cb cm init (pureSys f) past x t dt)
    (fun n h _ hm => abmStep_value N cb cm hcm init hw _ false _ _ _ _ h _ hm (user_not_owned _ _)
      (user_not_owned _ _) (by simp) fun _ => .inl hip)
    (fun n _ => abm_solution_step (by omega) hX n) h ⟨hf, by simp [hc, pastOf], by simp [pastOf]⟩ hx n
  simp only [Nat.zero_add] at a1 a2
  exact ⟨h', a1, a2, fun y hy => (a4 (.user y) (user_not_owned _ _) (by simpa using hy)).1⟩

/-- the steps of `initialize` on values -/
theorem ab_init_solution {N : ℕ} {init : InitStepper K} {f : V → K → V} {X : ℕ → V} {T : ℕ → K} {dt : K}
    (hs : ∀ i, i + 1 < N → init.recipe (W := Unit) (pureSys f) (X i) (f (X i) (T i)) (T i) dt () = .ok (X (i + 1)) ())
    (hT : ∀ i, T (i + 1) = T i + dt) : ∀ n i, i + n = N - 1 →
    abInitValue init (pureSys f) dt n (pastOf N f X T i) (X i) (T i) () =
      .ok (X (N - 1), pastOf N f X T (N - 1), T (N - 1)) ()
  | 0, i, h => by
    obtain rfl : i = N - 1 := by omega
    rfl
  | n + 1, i, h => by
    unfold abInitValue
    rw [M.bind_ok (show pureSys f (X i) (T i) () = .ok (f (X i) (T i)) () from rfl), M.bind_ok (hs i (by omega)), ← hT]
    have e : f (X i) (T i) :: pastOf N f X T i = pastOf N f X T (i + 1) := by
      rw [← pastOf_succ, List.take_of_length_le (by simp [pastOf_length]; omega)]
    rw [e]
    exact ab_init_solution hs hT n (i + 1) (by omega)

/-- **C36**: `initialize( s , sys , x , t , dt )` with any stepper `s` (also one that cannot be used in place), in any
state of the `adams_bashforth<N>` stepper, followed by `n` calls of `do_step`. -/
theorem adams_bashforth_initialize_run (N : ℕ) (coef : List K) (init s : InitStepper K) (hw : init.WellFormed)
    (hs : s.WellFormed) (f : V → K → V) (X : ℕ → V) (T : ℕ → K) (dt : K) (hT : ∀ i, T (i + 1) = T i + dt)
    (hX : AbSolution N coef s f X T dt) (h : Heap K V Unit) (hf : h.nat mFirst < N)
    (x : ℕ) (hx : h.state (.user x) = X 0) (n : ℕ) :
    ∃ h', (do
        let t ← abInitialize N s (pureSys f) (.user x) (T 0) dt
        repeatStep (fun i => abStep N coef init (pureSys f) false (.user x) (T (N - 1 + i)) (.user x) dt) n
        pure t) h = .ok (T (N - 1)) h' ∧
      h'.state (.user x) = X (N - 1 + n) ∧ ∀ y, y ≠ x → h'.state (.user y) = h.state (.user y) := by
  have H := abInitialize_value N s hs (pureSys f) (.user x) (user_not_owned _ _) (T 0) dt h hf
  have e0 : pastOf N f X T 0 = [] := by simp [pastOf]
  rw [hx, show h.world = () from rfl, ← e0, ab_init_solution hX.start hT (N - 1) 0 (by omega)] at H
  obtain ⟨h₁, b1, -, b3, b4, b5⟩ := H
  rw [M.bind_ok b1]
  obtain ⟨h', c1, c2, -, c4⟩ := adams_run_from (f := f) (X := X) (T := T) (os := abOwners) x (N - 1)
    (fun i => abStep N coef init (pureSys f) false (.user x) (T i) (.user x) dt)
    (fun past x t => abValue N coef init (pureSys f) past x t dt)
    (fun n h hn hm => abStep_value N coef init hw _ _ _ _ _ h _ hm (user_not_owned _ _) (user_not_owned _ _)
      fun hlt => by rw [pastOf_length] at hlt; omega)
    (fun n hn => by
      have := ab_solution_step (show 0 < N by omega) hX n
      unfold abValue at this ⊢
      rw [pastOf_length] at this ⊢
      simp only [if_neg (show ¬ min n (N - 1) + 1 < N by omega)] at this ⊢
      exact this) h₁ b4 b3 n
  refine ⟨h', ?_, c2, fun y hy => ?_⟩
  · rw [M.bind_ok c1]; rfl
  · exact (c4 (.user y) (user_not_owned _ _) (by simpa using hy)).1.trans
      (b5 (.user y) (user_not_owned _ _) (by simpa using hy)).1

/-- **C36**: the same for `adams_bashforth_moulton<N>`. -/
theorem adams_bashforth_moulton_initialize_run (N : ℕ) (cb cm : List K) (hcm : cm.length ≤ N) (init s : InitStepper K)
    (hw : init.WellFormed) (hs : s.WellFormed) (f : V → K → V) (X : ℕ → V) (T : ℕ → K) (dt : K)
    (hT : ∀ i, T (i + 1) = T i + dt) (hX : AbmSolution N cb cm s f X T dt) (h : Heap K V Unit) (hf : h.nat mFirst < N)
    (x : ℕ) (hx : h.state (.user x) = X 0) (n : ℕ) :
    ∃ h', (do
        let t ← abInitialize N s (pureSys f) (.user x) (T 0) dt
        repeatStep (fun i => abmStep N cb cm init (pureSys f) false (.user x) (T (N - 1 + i)) (.user x) dt) n
        pure t) h = .ok (T (N - 1)) h' ∧
      h'.state (.user x) = X (N - 1 + n) ∧ ∀ y, y ≠ x → h'.state (.user y) = h.state (.user y) := by
  have H := abInitialize_value N s hs (pureSys f) (.user x) (user_not_owned _ _) (T 0) dt h hf
  have e0 : pastOf N f X T 0 = [] := by simp [pastOf]
  rw [hx, show h.world = () from rfl, ← e0, ab_init_solution hX.start hT (N - 1) 0 (by omega)] at H
  obtain ⟨h₁, b1, -, b3, b4, b5⟩ := H
  rw [M.bind_ok b1]
  obtain ⟨h', c1, c2, -, c4⟩ := adams_run_from (f := f) (X := X) (T := T) (os := abmOwners) x (N - 1)
    (fun i => abmStep N cb cm init (pureSys f) false (.user x) (T i) (.user x) dt)
    (fun past x t => abmValue N cb cm init (pureSys f) past x t dt)
    (fun n h hn hm => abmStep_value N cb cm hcm init hw _ false _ _ _ _ h _ hm (user_not_owned _ _) (user_not_owned _ _)
      (by simp) fun hlt => by simp [pastOf] at hlt; omega)
    (fun n hn => by
      have := abm_solution_step (show 0 < N by omega) hX n
      unfold abmValue at this ⊢
      rw [pastOf_length] at this ⊢
      simp only [if_neg (show ¬ min n (N - 1) + 1 < N by omega)] at this ⊢
      exact this) h₁ b4 b3 n
  refine ⟨h', ?_, c2, fun y hy => ?_⟩
  · rw [M.bind_ok c1]; rfl
  · exact (c4 (.user y) (user_not_owned _ _) (by simpa using hy)).1.trans
      (b5 (.user y) (user_not_owned _ _) (by simpa using hy)).1

/-- Non-vacuity: for `x' = t`, `x(0) = 0`, `dt = 1`, started with one Euler step, the states of `adams_bashforth<2>` are
`0, 0, 3/2, 4, ...` -/
example : AbSolution 2 (abCoef 2) (.explicit .euler) (fun (_ : ℚ) (t : ℚ) => t)
    (fun n => if n = 0 then 0 else ((n : ℚ) ^ 2 - 1) / 2) (fun n => n) 1 := by
  constructor
  · intro i hi
    obtain rfl : i = 0 := by omega
    simp [InitStepper.recipe, ExplicitStepper.recipe, eulerStep, M.pure_apply, lin, lit]
  · intro i hi
    obtain ⟨j, rfl⟩ : ∃ j, i = j + 1 := ⟨i - 1, by omega⟩
    simp [abFormula, lastDerivs, abCoef, lin, lit, frac, nfrac, List.range, List.range.loop]
    ring

/-- Non-vacuity: the same for `adams_bashforth_moulton<2>`, with the states `0, 0, 3/2, 4, ...` -/
example : AbmSolution 2 (abCoef 2) (amCoef 2) (.explicit .euler) (fun (_ : ℚ) (t : ℚ) => t)
    (fun n => if n = 0 then 0 else ((n : ℚ) ^ 2 - 1) / 2) (fun n => n) 1 := by
  constructor
  · intro i hi
    obtain rfl : i = 0 := by omega
    simp [InitStepper.recipe, ExplicitStepper.recipe, eulerStep, M.pure_apply, lin, lit]
  · intro i hi
    obtain ⟨j, rfl⟩ : ∃ j, i = j + 1 := ⟨i - 1, by omega⟩
    simp [abFormula, lastDerivs, abCoef, amCoef, lin, lit, frac, nfrac, List.range, List.range.loop]
    ring

end Verif
