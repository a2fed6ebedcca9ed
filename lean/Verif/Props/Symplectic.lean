import Verif.Lemmas.Symplectic
import Mathlib.Tactic.FieldSimp
import Mathlib.Tactic.NormNum
import Mathlib.Tactic.Ring
import Mathlib.Tactic.Linarith
import Mathlib.Analysis.Real.Sqrt
import Mathlib.Analysis.Calculus.Gradient.Basic
import Mathlib.Analysis.Calculus.FDeriv.Symmetric
import Mathlib.Analysis.Calculus.FDeriv.Prod
import Mathlib.MeasureTheory.Measure.Prod
import Mathlib.MeasureTheory.Group.Measure
import Mathlib.MeasureTheory.Measure.Lebesgue.Basic
import Mathlib.Analysis.SpecialFunctions.Trigonometric.Basic
import Mathlib.Analysis.InnerProductSpace.Calculus

/-!
# C38, C51: the symplectic steppers
-/

set_option linter.unusedSectionVars false

namespace Verif

/-! ## Memory: in-place and out-of-place stepping -/

section memory
variable {K V W : Type} [Add K] [Sub K] [Mul K] [Div K] [IntCast K] [StateOps K V]

theorem sameOutcomes_of_implements {os : List Owner} {h : Heap K V W} {p₁ p₂ : StepM K V W Unit}
    {spec : M W (V × V)} {q₁ r₁ q₂ r₂ : Loc} {e₁ e₂ : List Loc}
    (H₁ : Implements os h p₁ spec (fun r => [(q₁, r.1), (r₁, r.2)]) e₁)
    (H₂ : Implements os h p₂ spec (fun r => [(q₂, r.1), (r₂, r.2)]) e₂)
    (a₁ : ¬ q₁.ownedBy os) (b₁ : ¬ r₁.ownedBy os) (a₂ : ¬ q₂.ownedBy os) (b₂ : ¬ r₂.ownedBy os)
    (n₁ : q₁ ≠ r₁) (n₂ : q₂ ≠ r₂) : SameOutcomes (p₁ h) [q₁, r₁] (p₂ h) [q₂, r₂] := by
  unfold Implements at H₁ H₂
  cases hs : spec h.world with
  | ok a w =>
    rw [hs] at H₁ H₂
    obtain ⟨g₁, x1, x2, x3⟩ := H₁
    obtain ⟨g₂, y1, y2, y3⟩ := H₂
    rw [x1, y1]
    refine ⟨?_, by rw [x2, y2]⟩
    have := (x3 _ a₁).1
    have := (x3 _ b₁).1
    have := (y3 _ a₂).1
    have := (y3 _ b₂).1
    simp_all [Heap.set_state_apply]
  | err e w =>
    rw [hs] at H₁ H₂
    obtain ⟨g₁, x1, x2, x3⟩ := H₁
    obtain ⟨g₂, y1, y2, y3⟩ := H₂
    rw [x1, y1]
    exact ⟨rfl, by rw [x2, y2]⟩
  | ub => rw [hs] at H₁ H₂; rw [H₁, H₂]; trivial
  | div => rw [hs] at H₁ H₂; rw [H₁, H₂]; trivial

/-- C38: stepping in place and out of place agree, for every number of stages, all coefficients, all systems (with
side effects, throwing, ...) and every arithmetic. -/
theorem symplectic_inplace_agrees (coef : List (K × K)) (hc : coef ≠ []) (coor mom : V → M W V) (q p q' p' : ℕ)
    (h1 : q ≠ p) (h2 : q' ≠ p') (h3 : q' ≠ p) (dt : K) (h : Heap K V W) :
    SameOutcomes (rknDoStep coef coor mom (.user q) (.user p) dt h) [.user q, .user p]
      (rknStepPair coef coor mom (.user q) (.user p) (.user q') (.user p') dt h) [.user q', .user p'] ∧
    SameOutcomes (rknDoStepMom coef mom (.user q) (.user p) dt h) [.user q, .user p]
      (rknStepMom coef mom (.user q) (.user p) (.user q') (.user p') dt h) [.user q', .user p'] := by
  have u : ∀ n, ¬ (Loc.user n).ownedBy [.symp] := fun n => by simp
  have n : ∀ {a b : ℕ}, a ≠ b → Loc.user a ≠ .user b := fun h e => h (by injection e)
  constructor
  · exact sameOutcomes_of_implements
      (rknStepPair_implements coor mom _ _ _ _ dt (u _) (u _) (u _) (u _) (n h1) (n h1) coef hc h)
      (rknStepPair_implements coor mom _ _ _ _ dt (u _) (u _) (u _) (u _) (n h2) (n h3) coef hc h)
      (u _) (u _) (u _) (u _) (n h1) (n h2)
  · exact sameOutcomes_of_implements
      (rknStepMom_implements mom _ _ _ _ dt (u _) (u _) (u _) (n h1) (n h1) coef hc h)
      (rknStepMom_implements mom _ _ _ _ dt (u _) (u _) (u _) (n h2) (n h3) coef hc h)
      (u _) (u _) (u _) (u _) (n h1) (n h2)

/-- The version for `dq/dt = p` agrees with the general one, called with the identity as first function. -/
theorem symplectic_momentum_version (coef : List (K × K)) (hc : coef ≠ []) (mom : V → M W V) (q p : ℕ) (h1 : q ≠ p)
    (dt : K) (h : Heap K V W) :
    SameOutcomes (rknDoStepMom coef mom (.user q) (.user p) dt h) [.user q, .user p]
      (rknDoStep coef pure mom (.user q) (.user p) dt h) [.user q, .user p] := by
  have u : ∀ n, ¬ (Loc.user n).ownedBy [.symp] := fun n => by simp
  have n : Loc.user q ≠ .user p := fun e => h1 (by injection e)
  exact sameOutcomes_of_implements
    (rknStepMom_implements mom _ _ _ _ dt (u _) (u _) (u _) n n coef hc h)
    (rknStepPair_implements pure mom _ _ _ _ dt (u _) (u _) (u _) (u _) n n coef hc h)
    (u _) (u _) (u _) (u _) n n

theorem rknRecipe_pure {W : Type} (coor mom : V → V) (dt : K) (coef : List (K × K)) (q p : V) :
    ∃ r, ∀ w : W, rknRecipe (fun x => pure (coor x)) (fun x => pure (mom x)) dt coef q p w = .ok r w := by
  induction coef generalizing q p with
  | nil => exact ⟨(q, p), fun _ => rfl⟩
  | cons c cs ih => obtain ⟨a, b⟩ := c; exact ih _ _

/-- `do_step` of a system without side effects performs the same map of phase space on any two distinct objects in
any heap, and changes no other object of the user. -/
theorem symplectic_do_step (coef : List (K × K)) (hc : coef ≠ []) (f g : V → V) (q p : ℕ) (hqp : q ≠ p) (dt : K)
    (h : Heap K V W) :
    ∃ h', rknDoStep coef (fun p => pure (f p)) (fun q => pure (g q)) (.user q) (.user p) dt h = .ok () h' ∧
      (h'.state (.user q), h'.state (.user p)) = sympMap coef f g dt (h.state (.user q), h.state (.user p)) ∧
      h'.world = h.world ∧ ∀ n, n ≠ q → n ≠ p → h'.state (.user n) = h.state (.user n) := by
  have u : ∀ n, ¬ (Loc.user n).ownedBy [.symp] := fun n => by simp
  have n : Loc.user q ≠ .user p := fun e => hqp (by injection e)
  have n01 : Loc.user 0 ≠ .user 1 := by decide
  have H := rknStepPair_implements (W := W) (fun x => pure (f x)) (fun x => pure (g x)) _ _ _ _ dt
    (u q) (u p) (u q) (u p) n n coef hc h
  have H0 := rknStepPair_implements (W := Unit) (fun x => pure (f x)) (fun x => pure (g x)) _ _ _ _ dt
    (u 0) (u 1) (u 0) (u 1) n01 n01 coef hc (phaseHeap (h.state (.user q), h.state (.user p)))
  obtain ⟨r, hr⟩ := rknRecipe_pure (W := W) f g dt coef (h.state (.user q)) (h.state (.user p))
  obtain ⟨r0, hr0⟩ := rknRecipe_pure (W := Unit) f g dt coef (h.state (.user q)) (h.state (.user p))
  have hrr : r0 = r := by
    have : ∀ (cs : List (K × K)) (a b : V) (x y : V × V),
        (∀ w : W, rknRecipe (fun x => pure (f x)) (fun x => pure (g x)) dt cs a b w = .ok x w) →
        (∀ w : Unit, rknRecipe (fun x => pure (f x)) (fun x => pure (g x)) dt cs a b w = .ok y w) → x = y := by
      intro cs
      induction cs with
      | nil =>
        intro a b x y hx hy
        have e1 := hx h.world; have e2 := hy ()
        simp only [rknRecipe, M.pure_apply, Res.ok.injEq, and_true] at e1 e2
        rw [← e1, ← e2]
      | cons c cs ih => intro a b x y hx hy; obtain ⟨c1, c2⟩ := c; exact ih _ _ _ _ hx hy
    exact (this _ _ _ _ _ hr hr0).symm
  unfold Implements at H H0
  simp only [phaseHeap, if_true, if_neg n01.symm] at H0
  rw [hr] at H
  rw [hr0] at H0
  obtain ⟨h', a1, a2, a3⟩ := H
  obtain ⟨g', b1, b2, b3⟩ := H0
  refine ⟨h', a1, ?_, a2, fun m hm1 hm2 => ?_⟩
  · have e : sympMap coef f g dt (h.state (.user q), h.state (.user p)) =
        (g'.state (.user 0), g'.state (.user 1)) := by
      unfold sympMap rknDoStep
      simp only [phaseHeap]
      rw [b1]
      rfl
    rw [e, (a3 _ (u q)).1, (a3 _ (u p)).1, (b3 _ (u 0)).1, (b3 _ (u 1)).1]
    simp [Heap.set_state_apply, n, hrr]
  · rw [(a3 _ (u m)).1]
    have m1 : Loc.user m ≠ .user q := fun e => hm1 (by injection e)
    have m2 : Loc.user m ≠ .user p := fun e => hm2 (by injection e)
    simp [Heap.set_state_apply, m1, m2]

end memory

/-! ## Exact arithmetic -/

section exact
variable {K V : Type} [Field K] [AddCommGroup V] [Module K V]

/-- C38: one `do_step` is the composition of the exact flows of `dq/dt = f(p)` and `dp/dt = g(q)`, taken
alternately for the times `a_i dt` and `b_i dt`. -/
theorem symplectic_composition (coef : List (K × K)) (f g : V → V) (dt : K) (z : V × V) :
    sympMap coef f g dt z =
      coef.foldl (fun z c => kick g (c.2 * dt) (drift f (c.1 * dt) z)) z := by
  by_cases hc : coef = []
  · subst hc; rfl
  have u : ∀ n, ¬ (Loc.user n).ownedBy [.symp] := fun n => by simp
  have n01 : Loc.user 0 ≠ .user 1 := by decide
  have H0 := rknStepPair_implements (W := Unit) (fun x => pure (f x)) (fun x => pure (g x)) _ _ _ _ dt
    (u 0) (u 1) (u 0) (u 1) n01 n01 coef hc (phaseHeap z)
  have key : ∀ (cs : List (K × K)) (a b : V),
      rknRecipe (W := Unit) (fun x => pure (f x)) (fun x => pure (g x)) dt cs a b () =
        .ok (cs.foldl (fun z c => kick g (c.2 * dt) (drift f (c.1 * dt) z)) (a, b)) () := by
    intro cs
    induction cs with
    | nil => intro a b; rfl
    | cons c cs ih =>
      intro a b
      obtain ⟨c1, c2⟩ := c
      refine (ih _ _).trans ?_
      simp [lin, lit, kick, drift]
  unfold Implements at H0
  simp only [phaseHeap, if_true, if_neg n01.symm] at H0
  rw [key] at H0
  obtain ⟨g', b1, b2, b3⟩ := H0
  have e : sympMap coef f g dt z = (g'.state (.user 0), g'.state (.user 1)) := by
    unfold sympMap rknDoStep
    simp only [phaseHeap]
    rw [b1]
    rfl
  rw [e, (b3 _ (u 0)).1, (b3 _ (u 1)).1]
  simp [Heap.set_state_apply]

/-- C38: the same for the version with `dq/dt = p`. -/
theorem symplectic_composition_momentum (coef : List (K × K)) (g : V → V) (dt : K) (z : V × V) :
    sympMapMom coef g dt z = sympMap coef id g dt z := by
  by_cases hc : coef = []
  · subst hc; rfl
  have := symplectic_momentum_version coef hc (fun q => (pure (g q) : M Unit V)) 0 1 (by decide) dt (phaseHeap z)
  unfold sympMapMom sympMap
  obtain ⟨h', e1, e2, -⟩ := symplectic_do_step coef hc id g 0 1 (by decide) dt (phaseHeap z)
  have e1' : rknDoStep coef pure (fun q => pure (g q)) (.user 0) (.user 1) dt (phaseHeap z) = .ok () h' := e1
  rw [e1'] at this
  rw [e1]
  generalize rknDoStepMom coef (fun q => (pure (g q) : M Unit V)) (.user 0) (.user 1) dt (phaseHeap z) = r at this ⊢
  cases r with
  | ok a k =>
    have t := this.1
    simp only [List.map_cons, List.map_nil, List.cons.injEq, and_true] at t
    simp only [phaseOf, Prod.mk.injEq]
    exact t
  | err e k => exact this.elim
  | ub => exact this.elim
  | div => exact this.elim

theorem drift_neg_drift (f : V → V) (s : K) (z : V × V) : drift f (-s) (drift f s z) = z := by
  simp [drift]
theorem drift_drift_neg (f : V → V) (s : K) (z : V × V) : drift f s (drift f (-s) z) = z := by
  simp [drift]
theorem kick_neg_kick (g : V → V) (s : K) (z : V × V) : kick g (-s) (kick g s z) = z := by
  simp [kick]
theorem kick_kick_neg (g : V → V) (s : K) (z : V × V) : kick g s (kick g (-s) z) = z := by
  simp [kick]

/-- C38: a step is a bijection of phase space; undoing the sub-steps in reverse order is its inverse. -/
theorem symplectic_bijective (coef : List (K × K)) (f g : V → V) (dt : K) :
    Function.LeftInverse (undoSteps f g dt coef) (sympMap coef f g dt) ∧
    Function.RightInverse (undoSteps f g dt coef) (sympMap coef f g dt) := by
  constructor
  · intro z
    rw [symplectic_composition, undoSteps]
    induction coef generalizing z with
    | nil => rfl
    | cons c cs ih =>
      simp only [List.foldl_cons, List.reverse_cons, List.foldl_append, List.foldl_nil]
      rw [ih, kick_neg_kick, drift_neg_drift]
  · intro z
    rw [symplectic_composition, undoSteps]
    induction coef using List.reverseRecOn generalizing z with
    | nil => rfl
    | append_singleton cs c ih =>
      simp only [List.foldl_append, List.reverse_append, List.reverse_cons, List.reverse_nil, List.nil_append,
        List.foldl_cons, List.foldl_nil, List.cons_append]
      rw [ih, drift_drift_neg, kick_kick_neg]

/-- C38: the coefficients of the three steppers add up to one, in the coordinates and in the momenta; for the
second one this holds whatever square root is used. -/
theorem symplectic_consistent [CharZero K] (sqrt : K → K) :
    ((symplecticEulerCoef : List (K × K)).map Prod.fst).sum = 1 ∧
    ((symplecticEulerCoef : List (K × K)).map Prod.snd).sum = 1 ∧
    ((sb3aCoef : List (K × K)).map Prod.fst).sum = 1 ∧ ((sb3aCoef : List (K × K)).map Prod.snd).sum = 1 ∧
    ((sb3aM4Coef sqrt : List (K × K)).map Prod.fst).sum = 1 ∧
    ((sb3aM4Coef sqrt : List (K × K)).map Prod.snd).sum = 1 := by
  refine ⟨?_, ?_, ?_, ?_, ?_, ?_⟩
  · simp [symplecticEulerCoef, lit]
  · simp [symplecticEulerCoef, lit]
  · simp [sb3aCoef, sb3aA, sb3aB, lit]; ring
  · simp [sb3aCoef, sb3aA, sb3aB, lit]; ring
  · simp [sb3aM4Coef, sb3aM4A, sb3aM4B, lit]; ring
  · simp [sb3aM4Coef, sb3aM4A, sb3aM4B, lit]; ring

/-- A consequence of consistency: for constant forces and velocities a step is exact in the momenta, i.e. both
variables move by exactly `dt` times their derivative when `f` and `g` are constant. -/
theorem symplectic_exact_constant (coef : List (K × K)) (v w : V) (dt : K)
    (ha : (coef.map Prod.fst).sum = 1) (hb : (coef.map Prod.snd).sum = 1) (z : V × V) :
    sympMap coef (fun _ => v) (fun _ => w) dt z = (z.1 + dt • v, z.2 + dt • w) := by
  rw [symplectic_composition]
  have key : ∀ (cs : List (K × K)) (z : V × V),
      cs.foldl (fun z c => kick (fun _ => w) (c.2 * dt) (drift (fun _ => v) (c.1 * dt) z)) z =
        (z.1 + ((cs.map Prod.fst).sum * dt) • v, z.2 + ((cs.map Prod.snd).sum * dt) • w) := by
    intro cs
    induction cs with
    | nil => intro z; simp
    | cons c cs ih =>
      intro z
      rw [List.foldl_cons, ih, List.map_cons, List.map_cons, List.sum_cons, List.sum_cons]
      simp only [kick, drift, Prod.mk.injEq]
      constructor <;> module
  rw [key, ha, hb, one_mul]

/-! ### C51: time reversibility -/

/-- The sequence of sub-steps `drift a_0, kick b_0, drift a_1, ...` without the last kick is the same read
backwards: `a_i = a_{n-1-i}`, `b_i = b_{n-2-i}`, and the last kick is trivial. -/
def Palindromic (coef : List (K × K)) : Prop :=
  (coef.map Prod.fst).reverse = coef.map Prod.fst ∧
  ∃ b, coef.map Prod.snd = b ++ [0] ∧ b.reverse = b

theorem kick_zero (g : V → V) (z : V × V) : kick g (0 : K) z = z := by simp [kick]

/-- the inverse sequence starting with a drift, on lists of drift times and kick times -/
theorem undo_eq_flow (f g : V → V) (dt : K) : ∀ (a b : List K), a.length = b.length + 1 → ∀ z : V × V,
    (a.zip (b ++ [0])).reverse.foldl (fun z c => drift f (-(c.1 * dt)) (kick g (-(c.2 * dt)) z)) z =
      (a.reverse.zip (b.reverse ++ [0])).foldl (fun z c => kick g (c.2 * -dt) (drift f (c.1 * -dt) z)) z := by
  intro a b hab
  have : ∀ (b : List K) (a0 : K) (a : List K), a.length = b.length → ∀ z : V × V,
      ((a0 :: a).zip (b ++ [0])).reverse.foldl (fun z c => drift f (-(c.1 * dt)) (kick g (-(c.2 * dt)) z)) z =
      ((a0 :: a).reverse.zip (b.reverse ++ [0])).foldl (fun z c => kick g (c.2 * -dt) (drift f (c.1 * -dt) z)) z := by
    intro b
    induction b with
    | nil =>
      intro a0 a ha z
      have : a = [] := by simpa using ha
      subst this
      simp [kick_zero]
    | cons b0 b ih =>
      intro a0 a ha z
      obtain ⟨a1, a, rfl⟩ : ∃ x y, a = x :: y := by cases a with
        | nil => simp at ha
        | cons x y => exact ⟨x, y, rfl⟩
      have ha' : a.length = b.length := by simpa using ha
      have l1 : (a0 :: a1 :: a).zip (b0 :: b ++ [0]) = (a0, b0) :: ((a1 :: a).zip (b ++ [0])) := by simp
      rw [l1, List.reverse_cons, List.foldl_append, ih a1 a ha']
      have l2 : (a0 :: a1 :: a).reverse.zip ((b0 :: b).reverse ++ [0]) =
          ((a1 :: a).reverse.zip (b.reverse ++ [b0])) ++ [(a0, 0)] := by
        rw [List.reverse_cons (a := a0), List.zip_append (by simp [ha'])]
        simp
      rw [l2, List.foldl_append]
      have l3 : ∀ (c : K), (a1 :: a).reverse.zip (b.reverse ++ [c]) = (a.reverse.zip b.reverse) ++ [(a1, c)] := by
        intro c
        rw [List.reverse_cons, List.zip_append (by simp [ha'])]; simp
      rw [l3, l3, List.foldl_append, List.foldl_append]
      simp [kick, drift]
  cases a with
  | nil => simp at hab
  | cons a0 a => exact this b a0 a (by simpa using hab)

/-- C51: a method whose sequence of sub-steps is palindromic is time reversible: a step with `-dt` undoes a step
with `dt`, exactly. -/
theorem symplectic_reversible (coef : List (K × K)) (hp : Palindromic coef) (f g : V → V) (dt : K) (z : V × V) :
    sympMap coef f g (-dt) (sympMap coef f g dt z) = z := by
  have key : ∀ w, sympMap coef f g (-dt) w = undoSteps f g dt coef w := by
    intro w
    obtain ⟨h1, b, h2, h3⟩ := hp
    have hz : coef = (coef.map Prod.fst).zip (b ++ [0]) := by
      rw [← h2]; exact (List.zip_of_prod rfl rfl)
    have hl : (coef.map Prod.fst).length = b.length + 1 := by
      have := congrArg List.length h2
      simpa using this
    rw [symplectic_composition, undoSteps]
    conv_rhs => rw [hz]
    rw [undo_eq_flow f g dt _ b hl, h1, h3, ← hz]
  rw [key]
  exact (symplectic_bijective coef f g dt).1 z

/-- C51: both fourth order steppers are time reversible. -/
theorem sb3a_reversible [CharZero K] (sqrt : K → K) (f g : V → V) (dt : K) (z : V × V) :
    sympMap sb3aCoef f g (-dt) (sympMap sb3aCoef f g dt z) = z ∧
    sympMap (sb3aM4Coef sqrt) f g (-dt) (sympMap (sb3aM4Coef sqrt) f g dt z) = z := by
  constructor
  · refine symplectic_reversible _ ⟨by simp [sb3aCoef, sb3aA, sb3aB], [frac (-3) 73, frac 17 59,
      lit 1 - lit 2 * (frac (-3) 73 + frac 17 59), frac 17 59, frac (-3) 73], ?_, by simp⟩ f g dt z
    simp [sb3aCoef, sb3aA, sb3aB, lit]
  · refine symplectic_reversible _ ⟨by simp [sb3aM4Coef, sb3aM4A, sb3aM4B], [lit 1, lit (-1) / lit 2,
      lit (-1) / lit 2, lit 1], ?_, by simp⟩ f g dt z
    simp [sb3aM4Coef, sb3aM4A, sb3aM4B, lit]

end exact

/-- The symplectic Euler method is not reversible: for `q' = p, p' = q` a step of length 1 followed by a step of
length -1 does not return to the start. -/
theorem symplectic_euler_not_reversible :
    sympMap symplecticEulerCoef (id : ℚ → ℚ) id (-1 : ℚ) (sympMap symplecticEulerCoef id id (1 : ℚ) (0, 1)) ≠ (0, 1) := by
  rw [symplectic_composition, symplectic_composition]
  simp [symplecticEulerCoef, lit, kick, drift]

/-! ## Symplecticity -/

section form
open RealInnerProductSpace
variable {E : Type} [NormedAddCommGroup E] [InnerProductSpace ℝ E] [CompleteSpace E]

/-- The canonical symplectic form on pairs (displacement, momentum change). -/
noncomputable def sympForm (u v : E × E) : ℝ := inner ℝ (u.1) (v.2) - inner ℝ (u.2) (v.1)

/-- The map preserves the canonical symplectic form: its derivative at every point does. -/
def IsSymplectic (Φ : E × E → E × E) : Prop :=
  ∀ z, DifferentiableAt ℝ Φ z ∧ ∀ u v, sympForm (fderiv ℝ Φ z u) (fderiv ℝ Φ z v) = sympForm u v

theorem IsSymplectic.comp {Φ Ψ : E × E → E × E} (hΦ : IsSymplectic Φ) (hΨ : IsSymplectic Ψ) :
    IsSymplectic (Φ ∘ Ψ) := by
  intro z
  refine ⟨(hΦ (Ψ z)).1.comp z (hΨ z).1, fun u v => ?_⟩
  rw [fderiv_comp z (hΦ (Ψ z)).1 (hΨ z).1]
  simp only [ContinuousLinearMap.comp_apply]
  rw [(hΦ (Ψ z)).2, (hΨ z).2]

theorem isSymplectic_id : IsSymplectic (id : E × E → E × E) := by
  intro z
  exact ⟨differentiableAt_id, fun u v => by simp⟩

/-- The gradient of a twice continuously differentiable function has a symmetric derivative. -/
theorem gradient_symmetric {T : E → ℝ} (hT : ContDiff ℝ 2 T) (x : E) :
    DifferentiableAt ℝ (gradient T) x ∧
      ∀ u v, inner ℝ (fderiv ℝ (gradient T) x u) (v) = inner ℝ (u) (fderiv ℝ (gradient T) x v) := by
  have hd : DifferentiableAt ℝ (fderiv ℝ T) x :=
    (hT.fderiv_right (m := 1) (by norm_num)).differentiable (by norm_num) x
  let L := (InnerProductSpace.toDual ℝ E).symm
  let R : (E →L[ℝ] ℝ) →L[ℝ] E :=
    { toFun := fun φ => L φ
      map_add' := fun a b => map_add L a b
      map_smul' := fun c a => by simp
      cont := L.continuous }
  have hL : HasFDerivAt (gradient T) (R.comp (fderiv ℝ (fderiv ℝ T) x)) x :=
    R.hasFDerivAt.comp x hd.hasFDerivAt
  refine ⟨hL.differentiableAt, fun u v => ?_⟩
  rw [hL.fderiv]
  have s := (hT.contDiffAt (x := x)).isSymmSndFDerivAt (by simp) u v
  have e1 : ∀ u v : E, inner ℝ (L (fderiv ℝ (fderiv ℝ T) x u)) (v) = fderiv ℝ (fderiv ℝ T) x u v := by
    intro u v
    exact InnerProductSpace.toDual_symm_apply
  show inner ℝ (L (fderiv ℝ (fderiv ℝ T) x u)) (v) = inner ℝ (u) (L (fderiv ℝ (fderiv ℝ T) x v))
  rw [e1, real_inner_comm, e1]
  exact s

theorem isSymplectic_drift {f : E → E} (s : ℝ) (hf : ∀ x, DifferentiableAt ℝ f x ∧
    ∀ u v, inner ℝ (fderiv ℝ f x u) (v) = inner ℝ (u) (fderiv ℝ f x v)) : IsSymplectic (drift f s) := by
  intro z
  have h2 : HasFDerivAt (fun z : E × E => f z.2) ((fderiv ℝ f z.2).comp (ContinuousLinearMap.snd ℝ E E)) z :=
    (hf z.2).1.hasFDerivAt.comp z hasFDerivAt_snd
  have h1 : HasFDerivAt (drift f s)
      ((ContinuousLinearMap.fst ℝ E E + s • (fderiv ℝ f z.2).comp (ContinuousLinearMap.snd ℝ E E)).prod
        (ContinuousLinearMap.snd ℝ E E)) z :=
    (hasFDerivAt_fst.add (h2.const_smul s)).prodMk hasFDerivAt_snd
  refine ⟨h1.differentiableAt, fun u v => ?_⟩
  rw [h1.fderiv]
  have := (hf z.2).2 u.2 v.2
  simp only [sympForm, ContinuousLinearMap.prod_apply, add_apply,
    ContinuousLinearMap.coe_fst', ContinuousLinearMap.coe_snd', smul_apply,
    ContinuousLinearMap.comp_apply, inner_add_left, inner_add_right, real_inner_smul_left, real_inner_smul_right]
  rw [this]; ring

theorem isSymplectic_kick {g : E → E} (s : ℝ) (hg : ∀ x, DifferentiableAt ℝ g x ∧
    ∀ u v, inner ℝ (fderiv ℝ g x u) (v) = inner ℝ (u) (fderiv ℝ g x v)) : IsSymplectic (kick g s) := by
  intro z
  have h2 : HasFDerivAt (fun z : E × E => g z.1) ((fderiv ℝ g z.1).comp (ContinuousLinearMap.fst ℝ E E)) z :=
    (hg z.1).1.hasFDerivAt.comp z hasFDerivAt_fst
  have h1 : HasFDerivAt (kick g s)
      ((ContinuousLinearMap.fst ℝ E E).prod
        (ContinuousLinearMap.snd ℝ E E + s • (fderiv ℝ g z.1).comp (ContinuousLinearMap.fst ℝ E E))) z :=
    hasFDerivAt_fst.prodMk (hasFDerivAt_snd.add (h2.const_smul s))
  refine ⟨h1.differentiableAt, fun u v => ?_⟩
  rw [h1.fderiv]
  have := (hg z.1).2 u.1 v.1
  simp only [sympForm, ContinuousLinearMap.prod_apply, add_apply,
    ContinuousLinearMap.coe_fst', ContinuousLinearMap.coe_snd', smul_apply,
    ContinuousLinearMap.comp_apply, inner_add_left, inner_add_right, real_inner_smul_left, real_inner_smul_right]
  rw [this]; ring

/-- C38: for every separable Hamiltonian `H(q,p) = T(p) + U(q)` (twice continuously differentiable, in any number of
dimensions), every coefficient list and every step size, `do_step` for `dq/dt = grad T(p)`, `dp/dt = - grad U(q)` is
a symplectic map. -/
theorem symplectic_step (coef : List (ℝ × ℝ)) (T U : E → ℝ) (hT : ContDiff ℝ 2 T) (hU : ContDiff ℝ 2 U) (dt : ℝ) :
    IsSymplectic (sympMap coef (gradient T) (fun q => - gradient U q) dt) := by
  have h1 := fun s : ℝ => isSymplectic_drift (E := E) s (gradient_symmetric hT)
  have h2 : ∀ s : ℝ, IsSymplectic (kick (fun q => - gradient U q) s) := by
    intro s
    refine isSymplectic_kick s fun x => ?_
    obtain ⟨d, e⟩ := gradient_symmetric hU x
    refine ⟨d.neg, fun u v => ?_⟩
    rw [fderiv_fun_neg]
    simp only [neg_apply, inner_neg_left, inner_neg_right, e u v]
  have key : ∀ cs : List (ℝ × ℝ), IsSymplectic (fun z => cs.foldl
      (fun z c => kick (fun q => - gradient U q) (c.2 * dt) (drift (gradient T) (c.1 * dt) z)) z) := by
    intro cs
    induction cs with
    | nil => exact isSymplectic_id
    | cons c cs ih => exact ih.comp ((h2 (c.2 * dt)).comp (h1 (c.1 * dt)))
  have e : sympMap coef (gradient T) (fun q => - gradient U q) dt = _ :=
    funext fun z => symplectic_composition coef _ _ dt z
  rw [e]
  exact key coef

/-- Non-vacuity: the harmonic oscillator in any number of dimensions, `T = |p|^2`, `U = |q|^2`. -/
example (dt : ℝ) : IsSymplectic (sympMap symplecticEulerCoef
    (gradient fun p : E => inner ℝ (p) (p)) (fun q => - gradient (fun q : E => inner ℝ (q) (q)) q) dt) :=
  symplectic_step _ _ _ (contDiff_id.inner ℝ contDiff_id) (contDiff_id.inner ℝ contDiff_id) dt

/-- The explicit Euler method, in contrast, is not symplectic: `(q,p) ↦ (q + p, p - q)` doubles the area. -/
example : ¬ IsSymplectic (fun z : ℝ × ℝ => (z.1 + z.2, z.2 - z.1)) := by
  intro h
  have h1 : HasFDerivAt (fun z : ℝ × ℝ => (z.1 + z.2, z.2 - z.1))
      ((ContinuousLinearMap.fst ℝ ℝ ℝ + ContinuousLinearMap.snd ℝ ℝ ℝ).prod
        (ContinuousLinearMap.snd ℝ ℝ ℝ - ContinuousLinearMap.fst ℝ ℝ ℝ)) (0, 0) :=
    (hasFDerivAt_fst.add hasFDerivAt_snd).prodMk (hasFDerivAt_snd.sub hasFDerivAt_fst)
  have := (h (0, 0)).2 (1, 0) (0, 1)
  rw [h1.fderiv] at this
  simp [sympForm] at this

end form

/-! ## Volume -/

section volume
open MeasureTheory
variable {E : Type} [NormedAddCommGroup E] [NormedSpace ℝ E] [MeasurableSpace E] [BorelSpace E]
  [SecondCountableTopology E] (μ : Measure E) [SFinite μ] [μ.IsAddLeftInvariant]

/-- C38: a step preserves the volume of phase space, for all (measurable) `f` and `g`, also if they are not
gradients. -/
theorem symplectic_volume (coef : List (ℝ × ℝ)) (f g : E → E) (hf : Measurable f) (hg : Measurable g) (dt : ℝ) :
    MeasurePreserving (sympMap coef f g dt) (μ.prod μ) (μ.prod μ) := by
  have hk : ∀ s : ℝ, MeasurePreserving (kick g s) (μ.prod μ) (μ.prod μ) := by
    intro s
    refine (MeasurePreserving.id μ).skew_product (g := fun q p => p + s • g q) ?_ ?_
    · exact measurable_snd.add ((hg.comp measurable_fst).const_smul s)
    · refine Filter.Eventually.of_forall fun q => ?_
      have : (fun p => p + s • g q) = fun p => s • g q + p := by funext p; rw [add_comm]
      rw [this]; exact map_add_left_eq_self μ _
  have hd : ∀ s : ℝ, MeasurePreserving (drift f s) (μ.prod μ) (μ.prod μ) := by
    intro s
    have h1 : MeasurePreserving (fun z : E × E => (z.1, z.2 + s • f z.1)) (μ.prod μ) (μ.prod μ) := by
      refine (MeasurePreserving.id μ).skew_product (g := fun q p => p + s • f q) ?_ ?_
      · exact measurable_snd.add ((hf.comp measurable_fst).const_smul s)
      · refine Filter.Eventually.of_forall fun q => ?_
        have : (fun p => p + s • f q) = fun p => s • f q + p := by funext p; rw [add_comm]
        rw [this]; exact map_add_left_eq_self μ _
    exact (Measure.measurePreserving_swap.comp h1).comp Measure.measurePreserving_swap
  have key : ∀ cs : List (ℝ × ℝ), MeasurePreserving (fun z => cs.foldl
      (fun z c => kick g (c.2 * dt) (drift f (c.1 * dt) z)) z) (μ.prod μ) (μ.prod μ) := by
    intro cs
    induction cs with
    | nil => exact MeasurePreserving.id _
    | cons c cs ih => exact ih.comp ((hk (c.2 * dt)).comp (hd (c.1 * dt)))
  have e : sympMap coef f g dt = _ := funext fun z => symplectic_composition coef f g dt z
  rw [e]
  exact key coef

/-- Non-vacuity: Lebesgue measure in the plane. -/
example (dt : ℝ) : MeasurePreserving (sympMap sb3aCoef Real.sin Real.cos dt)
    ((volume : Measure ℝ).prod volume) ((volume : Measure ℝ).prod volume) :=
  symplectic_volume volume _ _ _ Real.continuous_sin.measurable Real.continuous_cos.measurable dt

end volume
end Verif
