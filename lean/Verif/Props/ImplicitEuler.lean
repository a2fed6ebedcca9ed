import Verif.Spec.ImplicitEuler
import Verif.Props.BulirschStoerDenseWitness
import Mathlib.Analysis.Complex.Basic
import Mathlib.LinearAlgebra.Matrix.Notation
import Mathlib.Tactic.LinearCombination

/-!
# C42: `implicit_euler`
-/

namespace Verif
set_option linter.unusedSectionVars false
variable {K W Pm : Type} {n : ℕ} [Field K]

/-- `ieDoStep` satisfies what `ieStep` satisfies -/
theorem ieDoStep_sat {L : Lu K n Pm} {large : (Fin n → K) → Bool} {sys : Sys K (Fin n → K) W} {jac : IeJac K W n} {t dt : K} {s : IeState K n W}
    {Q : Option (Fin n → K) → Prop} {D : Prop} (h : (ieStep L large sys jac s.x t dt s.world).Sat (fun r _ => Q r) (fun _ _ => True) D) :
    (ieDoStep L large sys jac t dt s).Sat (fun r s' => if r then Q (some s'.x) else s'.x = s.x ∧ Q none) (fun _ s' => s'.x = s.x) D := by
  unfold ieDoStep
  cases hr : ieStep L large sys jac s.x t dt s.world with
  | ok o w =>
    rw [hr] at h
    cases o with
    | none => exact ⟨rfl, h⟩
    | some y => exact h
  | err e w => exact rfl
  | ub => rw [hr] at h; exact h.elim
  | div => rw [hr] at h; exact h

/-- the calls of the user's functions are not undefined -/
def IeJac.Defined (jac : IeJac K W n) : Prop := ∀ x t w, jac x t w ≠ .ub

/-- the calls of the user's functions do come back -/
def IeHalts (sys : Sys K (Fin n → K) W) (jac : IeJac K W n) : Prop := (∀ x t w, sys x t w ≠ .div) ∧ ∀ x t w, jac x t w ≠ .div

theorem call_sat {S α : Type} {m : M S α} {s : S} {Q : α → Prop} (h1 : m s ≠ .ub) (h2 : m s ≠ .div) (hQ : ∀ a s', m s = .ok a s' → Q a) {D : Prop} :
    (m s).Sat (fun a _ => Q a) (fun _ _ => True) D := by
  cases hm : m s with
  | ok a s' => exact hQ a s' hm
  | err _ _ => trivial
  | ub => exact absurd hm h1
  | div => exact absurd hm h2

/-- C42, systems that are linear in the state, `f( x , t ) = A( t ) x + c( t )`: `do_step` always comes back; if it returns, the new state is that of the implicit
Euler method, exactly, and otherwise, if a factorisation fails, the program is ended.  An exception of the user's functions leaves the state unchanged. -/
theorem implicit_euler_linear (L : Lu K n Pm) (hL : L.Solves) (large : (Fin n → K) → Bool) (hlarge : large 0 = false) {sys : Sys K (Fin n → K) W}
    {jac : IeJac K W n} (hs : sys.Defined) (hj : jac.Defined) (hh : IeHalts sys jac) (A : K → Matrix (Fin n) (Fin n) K) (c : K → Fin n → K)
    (hf : Returns sys fun x t => (A t).mulVec x + c t) (hJ : jac.Returns A) (t dt : K) (s : IeState K n W) :
    (ieDoStep L large sys jac t dt s).Sat
      (fun r s' => if r then IsImplicitEuler (fun x t => (A t).mulVec x + c t) s.x t dt s'.x else s'.x = s.x ∧ True)
      (fun _ s' => s'.x = s.x) False := by
  refine ieDoStep_sat (Q := fun o => match o with | none => True | some y => IsImplicitEuler (fun x t => (A t).mulVec x + c t) s.x t dt y) ?_
  unfold ieStep
  refine Res.Sat.bind (Res.Sat.mono (Q := fun o _ => ∀ it, o = some it → IsImplicitEuler (fun x t => (A t).mulVec x + c t) s.x t dt it.mx) ?_ ?_
    (fun _ _ h => h) (fun h => h))
  · -- the first correction
    unfold ieFirst
    refine Res.Sat.bind ((call_sat (hs _ _ _) (hh.1 _ _ _) fun a w' h => hf _ _ _ _ _ h).mono (fun d w1 hd => ?_) (fun _ _ h => h) (fun h => h))
    refine Res.Sat.bind ((call_sat (hj _ _ _) (hh.2 _ _ _) fun a w' h => hJ _ _ _ _ _ h).mono (fun J w2 hJ' => ?_) (fun _ _ h => h) (fun h => h))
    intro it hit
    subst hd
    subst hJ'
    revert hit
    unfold ieSolve
    cases hF : L.factorize (dt • A (t + dt) - 1) L.start with
    | none => intro hit; cases hit
    | some r =>
      intro hit
      cases hit
      have hsol := hL.solves _ _ _ (dt • ((A (t + dt)).mulVec s.x + c (t + dt))) hF
      generalize L.substitute r.1 r.2 (dt • ((A (t + dt)).mulVec s.x + c (t + dt))) = b at hsol
      rw [Matrix.sub_mulVec, Matrix.one_mulVec, Matrix.smul_mulVec] at hsol
      unfold IsImplicitEuler
      dsimp only
      rw [Matrix.mulVec_sub]
      have h2 : b = dt • (A (t + dt)).mulVec b - dt • ((A (t + dt)).mulVec s.x + c (t + dt)) := by rw [← hsol]; abel
      nth_rw 1 [h2]
      simp only [smul_add, smul_sub]
      abel
  · intro o w1 ho
    refine Res.Sat.bind ((whileM_sat_total (fun o _ => ∀ it, o = some it → IsImplicitEuler (fun x t => (A t).mulVec x + c t) s.x t dt it.mx)
      (fun o _ => if ieCond large o = true then 1 else 0) ?_ ho).mono ?_ (fun _ _ h => h) (fun h => h))
    · rintro o w ho hc
      rw [if_pos hc]
      cases o with
      | none => cases hc
      | some it =>
        have hit := ho it rfl
        show ((do let d ← sys it.mx (t + dt)
                  pure (match ieSolve L (s.x - it.mx + dt • d) it.J it.pm with
                    | none => none
                    | some (b, J', pm') => some ⟨it.mx - b, b, J', pm'⟩) : M W (Option (IeIter K n Pm))) w).Sat _ _ _
        refine Res.Sat.bind ((call_sat (hs _ _ _) (hh.1 _ _ _) fun a w' h => hf _ _ _ _ _ h).mono (fun d w2 hd => ?_) (fun _ _ h => h) (fun h => h))
        subst hd
        have h0 : s.x - it.mx + dt • ((A (t + dt)).mulVec it.mx + c (t + dt)) = 0 := by
          unfold IsImplicitEuler at hit
          nth_rw 1 [hit]
          dsimp only
          abel
        rw [h0]
        unfold ieSolve
        cases hF : L.factorize it.J it.pm with
        | none => exact ⟨fun it h => (nomatch h), Nat.zero_lt_one⟩
        | some r =>
          dsimp only
          rw [hL.zero]
          refine ⟨fun it' h => ?_, ?_⟩
          · cases h
            rw [sub_zero]
            exact hit
          · rw [if_neg]
            · exact Nat.zero_lt_one
            · show ¬ large 0 = true
              rw [hlarge]
              simp
    · rintro o w ⟨ho, -⟩
      cases o with
      | none => trivial
      | some it => exact ho it rfl

/-- C42, the test of convergence, for every system: when `do_step` returns, the last Newton correction `b` is not larger than the tolerance.  It was computed from the
equation at the last but one iterate `m` (at the start value, if there was one correction only), with the factors `F` of some matrix, and the result is `m - b`. -/
theorem implicit_euler_converged (L : Lu K n Pm) (large : (Fin n → K) → Bool) {sys : Sys K (Fin n → K) W}
    {jac : IeJac K W n} (hs : sys.Defined) (hj : jac.Defined) (f : (Fin n → K) → K → Fin n → K) (hf : Returns sys f) (t dt : K) (s : IeState K n W) :
    (ieDoStep L large sys jac t dt s).Sat
      (fun r s' => r = true → ∃ m F pm, large (L.substitute F pm (s.x - m + dt • f m (t + dt))) = false ∧
        s'.x = m - L.substitute F pm (s.x - m + dt • f m (t + dt)))
      (fun _ s' => s'.x = s.x) True := by
  have key : (ieStep L large sys jac s.x t dt s.world).Sat (fun o _ => ∀ y, o = some y → ∃ m F pm,
      large (L.substitute F pm (s.x - m + dt • f m (t + dt))) = false ∧ y = m - L.substitute F pm (s.x - m + dt • f m (t + dt))) (fun _ _ => True) True := by
    unfold ieStep
    have callS : ∀ {α : Type} {m : M W α} {w : W} {Q : α → Prop} (h1 : m w ≠ .ub) (hQ : ∀ a s', m w = .ok a s' → Q a),
        (m w).Sat (fun a _ => Q a) (fun _ _ => True) True := by
      intro α m w Q h1 hQ
      cases hm : m w with
      | ok a s' => exact hQ a s' hm
      | err _ _ => trivial
      | ub => exact absurd hm h1
      | div => trivial
    refine Res.Sat.bind (Res.Sat.mono (Q := fun o _ => ∀ it : IeIter K n Pm, o = some it → ∃ m F pm,
      it.b = L.substitute F pm (s.x - m + dt • f m (t + dt)) ∧ it.mx = m - it.b) ?_ ?_ (fun _ _ h => h) (fun h => h))
    · unfold ieFirst
      refine Res.Sat.bind ((callS (hs _ _ _) fun a w' h => hf _ _ _ _ _ h).mono (fun d w1 hd => ?_) (fun _ _ h => h) (fun h => h))
      refine Res.Sat.bind ((callS (Q := fun _ => True) (hj _ _ _) fun a w' h => trivial).mono (fun J w2 _ => ?_) (fun _ _ h => h) (fun h => h))
      intro it hit
      subst hd
      revert hit
      unfold ieSolve
      cases hF : L.factorize (dt • J - 1) L.start with
      | none => intro hit; cases hit
      | some r =>
        intro hit
        cases hit
        exact ⟨s.x, r.1, r.2, by rw [sub_self, zero_add], rfl⟩
    · intro o w1 ho
      refine Res.Sat.bind ((whileM_sat (fun (o : Option (IeIter K n Pm)) _ => ∀ it : IeIter K n Pm, o = some it → ∃ m F pm,
        it.b = L.substitute F pm (s.x - m + dt • f m (t + dt)) ∧ it.mx = m - it.b) ?_ ho).mono ?_ (fun _ _ h => h) (fun h => h))
      · rintro o w ho hc
        cases o with
        | none => cases hc
        | some it =>
          show ((do let d ← sys it.mx (t + dt)
                    pure (match ieSolve L (s.x - it.mx + dt • d) it.J it.pm with
                      | none => none
                      | some (b, J', pm') => some ⟨it.mx - b, b, J', pm'⟩) : M W (Option (IeIter K n Pm))) w).Sat _ _ _
          refine Res.Sat.bind ((callS (hs _ _ _) fun a w' h => hf _ _ _ _ _ h).mono (fun d w2 hd => ?_) (fun _ _ h => h) (fun h => h))
          subst hd
          unfold ieSolve
          cases hF : L.factorize it.J it.pm with
          | none => exact fun it h => (nomatch h)
          | some r =>
            intro it' h
            cases h
            exact ⟨it.mx, r.1, r.2, rfl, rfl⟩
      · rintro o w ⟨ho, hc⟩
        cases o with
        | none => exact fun y h => (nomatch h)
        | some it =>
          intro y hy
          cases hy
          obtain ⟨m, F, pm, h1, h2⟩ := ho it rfl
          refine ⟨m, F, pm, ?_, ?_⟩
          · rw [← h1]; exact hc
          · rw [← h1]; exact h2
  refine (ieDoStep_sat (Q := fun o => ∀ y, o = some y → ∃ m F pm,
      large (L.substitute F pm (s.x - m + dt • f m (t + dt))) = false ∧ y = m - L.substitute F pm (s.x - m + dt • f m (t + dt))) key).mono ?_
    (fun _ _ h => h) (fun h => h)
  intro r s' h hr
  subst hr
  exact h _ rfl

/-! ## One equation -/

/-- for one equation the factors are the matrix itself -/
structure Lu.Scalar (L : Lu K 1 Pm) : Prop where
  factorize : ∀ m, m 0 0 ≠ 0 → L.factorize m L.start = some (m, L.start)
  singular : ∀ m, m 0 0 = 0 → L.factorize m L.start = none
  substitute : ∀ m b, m 0 0 ≠ 0 → L.substitute m L.start b 0 = b 0 / m 0 0

/-- C42, one equation, any right-hand side: the derivative at the start value is used for all corrections.  When `do_step` returns, the result `y` is a Newton
correction away from a point `m`, the correction passes the test of convergence, and times `dt f_x - 1` it is the residual of the implicit equation at `m`.  The
program is ended only if `dt f_x = 1` at the start value. -/
theorem implicit_euler_scalar (L : Lu K 1 Pm) (hL : L.Scalar) (large : (Fin 1 → K) → Bool) {sys : Sys K (Fin 1 → K) W}
    {jac : IeJac K W 1} (hs : sys.Defined) (hj : jac.Defined) (f : (Fin 1 → K) → K → Fin 1 → K) (hf : Returns sys f)
    (df : (Fin 1 → K) → K → K) (hJ : ∀ x t w J w', jac x t w = .ok J w' → J 0 0 = df x t) (t dt : K) (s : IeState K 1 W) :
    (ieDoStep L large sys jac t dt s).Sat
      (fun r s' => if r then dt * df s.x (t + dt) - 1 ≠ 0 ∧ ∃ m b : Fin 1 → K, large b = false ∧ s'.x = m - b ∧
          (dt * df s.x (t + dt) - 1) • b = s.x - m + dt • f m (t + dt)
        else s'.x = s.x ∧ dt * df s.x (t + dt) - 1 = 0)
      (fun _ s' => s'.x = s.x) True := by
  refine (ieDoStep_sat (Q := fun o => match o with
    | none => dt * df s.x (t + dt) - 1 = 0
    | some y => dt * df s.x (t + dt) - 1 ≠ 0 ∧ ∃ m b : Fin 1 → K, large b = false ∧ y = m - b ∧ (dt * df s.x (t + dt) - 1) • b = s.x - m + dt • f m (t + dt))
    (D := True) ?_)
  have callS : ∀ {α : Type} {m : M W α} {w : W} {Q : α → Prop} (h1 : m w ≠ .ub) (hQ : ∀ a s', m w = .ok a s' → Q a),
      (m w).Sat (fun a _ => Q a) (fun _ _ => True) True := by
    intro α m w Q h1 hQ
    cases hm : m w with
    | ok a s' => exact hQ a s' hm
    | err _ _ => trivial
    | ub => exact absurd hm h1
    | div => trivial
  set j := dt * df s.x (t + dt) - 1 with hjdef
  -- what is known of the variables
  let I : Option (IeIter K 1 Pm) → Prop := fun o => match o with
    | none => j = 0
    | some it => j ≠ 0 ∧ it.J 0 0 = j ∧ it.pm = L.start ∧ ∃ m : Fin 1 → K, it.mx = m - it.b ∧ j • it.b = s.x - m + dt • f m (t + dt)
  have hsolve : ∀ (b : Fin 1 → K) (J : Matrix (Fin 1) (Fin 1) K), J 0 0 = j →
      (j = 0 → ieSolve L b J L.start = none) ∧ (j ≠ 0 → ∃ b', ieSolve L b J L.start = some (b', J, L.start) ∧ j • b' = b) := by
    intro b J hJ0
    unfold ieSolve
    constructor
    · intro h0
      rw [hL.singular J (by rw [hJ0, h0])]
    · intro h0
      rw [hL.factorize J (by rw [hJ0]; exact h0)]
      refine ⟨_, rfl, ?_⟩
      funext i
      rw [Subsingleton.elim i 0]
      show j * L.substitute J L.start b 0 = b 0
      rw [hL.substitute J b (by rw [hJ0]; exact h0), hJ0]
      field_simp
  unfold ieStep
  refine Res.Sat.bind (Res.Sat.mono (Q := fun o _ => I o) ?_ ?_ (fun _ _ h => h) (fun h => h))
  · unfold ieFirst
    refine Res.Sat.bind ((callS (hs _ _ _) fun a w' h => hf _ _ _ _ _ h).mono (fun d w1 hd => ?_) (fun _ _ h => h) (fun h => h))
    refine Res.Sat.bind ((callS (hj _ _ _) fun a w' h => hJ _ _ _ _ _ h).mono (fun J w2 hJ' => ?_) (fun _ _ h => h) (fun h => h))
    subst hd
    have hJ0 : (dt • J - 1) 0 0 = j := by
      rw [Matrix.sub_apply, Matrix.smul_apply, hJ']
      simp [hjdef]
    obtain ⟨s0, s1⟩ := hsolve (dt • f s.x (t + dt)) (dt • J - 1) hJ0
    show I _
    by_cases h0 : j = 0
    · rw [s0 h0]; exact h0
    · obtain ⟨b', e, hb⟩ := s1 h0
      rw [e]
      exact ⟨h0, hJ0, rfl, s.x, rfl, by rw [hb]; abel⟩
  · intro o w1 ho
    refine Res.Sat.bind ((whileM_sat (fun o _ => I o) ?_ ho).mono ?_ (fun _ _ h => h) (fun h => h))
    · rintro o w ho hc
      cases o with
      | none => cases hc
      | some it =>
        obtain ⟨h0, hJ0, hpm, -⟩ := ho
        unfold ieBody
        dsimp only
        refine Res.Sat.bind ((callS (hs _ _ _) fun a w' h => hf _ _ _ _ _ h).mono (fun d w2 hd => ?_) (fun _ _ h => h) (fun h => h))
        subst hd
        obtain ⟨b', e, hb⟩ := (hsolve (s.x - it.mx + dt • f it.mx (t + dt)) it.J hJ0).2 h0
        show I _
        rw [hpm, e]
        exact ⟨h0, hJ0, rfl, it.mx, rfl, hb⟩
    · rintro o w ⟨ho, hc⟩
      cases o with
      | none => exact ho
      | some it =>
        obtain ⟨h0, -, -, m, h1, h2⟩ := ho
        exact ⟨h0, m, it.b, hc, h1, h2⟩

/-! ## Stability -/

/-- C42: the implicit Euler step for `x' = c x` with `c` in the closed left half plane does not increase `|x|`, whatever the step size (A-stability), and
`|x|` is divided by at least `|1 - c dt|`, which tends to infinity with `|c dt|` (L-stability). -/
theorem implicit_euler_a_stable (c : ℂ) (hc : c.re ≤ 0) (dt : ℝ) (hdt : 0 ≤ dt) (t : ℂ) (x y : Fin 1 → ℂ)
    (h : IsImplicitEuler (fun x (_ : ℂ) => c • x) x t dt y) : ‖y 0‖ ≤ ‖x 0‖ ∧ ‖1 - dt * c‖ * ‖y 0‖ = ‖x 0‖ := by
  have h0 : y 0 = x 0 + dt * (c * y 0) := congrFun h 0
  have h1 : (1 - dt * c) * y 0 = x 0 := by linear_combination h0
  have h2 : ‖1 - dt * c‖ * ‖y 0‖ = ‖x 0‖ := by rw [← norm_mul, h1]
  have h3 : 1 ≤ ‖1 - dt * c‖ := by
    have : 1 ≤ (1 - (dt : ℂ) * c).re := by
      simp only [Complex.sub_re, Complex.one_re, Complex.mul_re, Complex.ofReal_re, Complex.ofReal_im, zero_mul, sub_zero]
      nlinarith
    exact le_trans this (Complex.re_le_norm _)
  refine ⟨?_, h2⟩
  rw [← h2]
  nlinarith [norm_nonneg (y 0)]

/-! ## More than one equation -/

/-- `x' = 2 x + y`, `y' = x + 3 y` -/
def twoByTwo : Matrix (Fin 2) (Fin 2) ℚ := !![2, 1; 1, 3]

/-- the system with this matrix -/
def twoSys : Sys ℚ (Fin 2 → ℚ) Unit := fun x _ => pure (twoByTwo.mulVec x)

/-- its Jacobian -/
def twoJac : IeJac ℚ Unit 2 := fun _ _ => pure twoByTwo

/-- the linear solver of ublas for two rational equations -/
def ratLu : Lu ℚ 2 (ℕ → ℕ) := ublasLu (fun a => |a|) (fun a b => decide (a ≤ b)) 2

/-- `norm_2( b ) > 10^-6` -/
def ratLarge (b : Fin 2 → ℚ) : Bool := decide ((1 / 10 ^ 6 : ℚ) ^ 2 < b 0 ^ 2 + b 1 ^ 2)

/-- is the program ended? -/
def ieExits {S α : Type} : Option (Res S (Option α)) → Bool
  | some (.ok none _) => true
  | _ => false

/-- C42 is violated for more than one equation: the second correction factorises the matrix once more, although it has been replaced by its factors before.  For the
system with the matrix `[[2, 1], [1, 3]]` and `dt = 1` the equation of the implicit Euler step has exactly one solution, but the factors, taken as a matrix, are
`[[1, 1], [1, 1]]`, which is singular: the step ends the program. -/
theorem implicit_euler_exits : IsUnit (1 - (1 : ℚ) • twoByTwo).det ∧
    ieDoStep ratLu ratLarge twoSys twoJac 0 1 ⟨![1, 0], ()⟩ = .ok false ⟨![1, 0], ()⟩ := by
  constructor
  · rw [twoByTwo, isUnit_iff_ne_zero, one_smul]
    simp [Matrix.det_fin_two, Matrix.one_fin_two]
    norm_num
  · have h : ieExits (match ieFirst ratLu twoSys twoJac ![1, 0] 0 1 () with
        | .ok o w => whileF (ieCond ratLarge) (ieBody ratLu twoSys ![1, 0] 0 1) 3 o w
        | _ => none) = true := by decide +kernel
    have hstep : ieStep ratLu ratLarge twoSys twoJac ![1, 0] 0 1 () = .ok none () := by
      unfold ieStep
      rw [M.bind_apply]
      cases hF : ieFirst ratLu twoSys twoJac ![1, 0] 0 1 () with
      | ok o w =>
        rw [hF] at h
        dsimp only at h ⊢
        rw [M.bind_apply]
        cases hW : whileF (ieCond ratLarge) (ieBody ratLu twoSys ![1, 0] 0 1) 3 o w with
        | none => rw [hW] at h; cases h
        | some r =>
          rw [whileM_eq_of_whileF hW]
          rw [hW] at h
          cases r with
          | ok o' w' =>
            cases o' with
            | none => rfl
            | some _ => cases h
          | err _ _ => cases h
          | ub => cases h
          | div => cases h
      | err _ _ => rw [hF] at h; cases h
      | ub => rw [hF] at h; cases h
      | div => rw [hF] at h; cases h
    unfold ieDoStep
    dsimp only
    rw [hstep]

/-! ## Non-vacuity -/

/-- a solver that fulfils the contract: the inverse matrix -/
noncomputable def inverseLu (n : ℕ) [DecidableEq K] : Lu K n Unit where
  start := ()
  factorize m p := if m.det = 0 then none else some (m, p)
  substitute m _ b := m⁻¹.mulVec b

theorem inverseLu_solves (n : ℕ) [DecidableEq K] : (inverseLu n : Lu K n Unit).Solves where
  solves m m' p b h := by
    unfold inverseLu at h ⊢
    dsimp only at h ⊢
    split at h
    · cases h
    · rename_i hdet
      cases h
      rw [Matrix.mulVec_mulVec, Matrix.mul_nonsing_inv _ (isUnit_iff_ne_zero.mpr hdet), Matrix.one_mulVec]
  zero m p := by simp [inverseLu]

example : (1 - (1 : ℚ) • twoByTwo).det ≠ 0 ∧ (inverseLu 2 : Lu ℚ 2 Unit).Solves ∧ ratLarge 0 = false ∧ twoSys.Defined ∧ twoJac.Defined ∧
    IeHalts twoSys twoJac ∧ Returns twoSys (fun x _ => twoByTwo.mulVec x + 0) ∧ twoJac.Returns fun _ => twoByTwo := by
  refine ⟨?_, inverseLu_solves 2, by norm_num [ratLarge], fun _ _ _ => (fun h => nomatch h), fun _ _ _ => (fun h => nomatch h),
    ⟨fun _ _ _ => (fun h => nomatch h), fun _ _ _ => (fun h => nomatch h)⟩, ?_, ?_⟩
  · exact isUnit_iff_ne_zero.1 implicit_euler_exits.1
  · intro x t w v w' h
    cases h
    simp
  · intro x t w v w' h
    cases h
    rfl

/-- for one equation the algorithm of ublas fulfils the contract of `implicit_euler_scalar` -/
theorem ublasLu_scalar [DecidableEq K] (abs : K → K) (le : K → K → Bool) : (ublasLu abs le 1).Scalar := by
  have hr : List.range 1 = [0] := rfl
  have hp : ∀ m : ℕ → ℕ → K, luPivot abs le 1 m 0 = 0 := by
    intro m
    simp [luPivot, hr]
  constructor
  · intro m h
    simp only [ublasLu, hr, List.foldl_cons, List.foldl_nil, luStage, hp]
    simp only [Nat.lt_one_iff, and_self, dif_pos, Fin.zero_eta, Fin.isValue, h, if_false]
    simp only [Bool.false_eq_true, if_false]
    congr 2
    · funext i j
      rw [Subsingleton.elim i 0, Subsingleton.elim j 0]
      simp
    · funext k
      simp
  · intro m h
    simp [ublasLu, hr, luStage, hp, h]
  · intro m b h
    simp [ublasLu, hr, luUpper, luLower, luSwap, unFin]

/-- C61 (partial: one equation): with the algorithm of ublas, `do_step` for `x' = a( t ) x + c( t )` returns the implicit Euler step whenever the equation of the step is
regular, `dt a ≠ 1`.  For more equations see `implicit_euler_exits`. -/
theorem implicit_euler_regular_partial [DecidableEq K] (abs : K → K) (le : K → K → Bool) (large : (Fin 1 → K) → Bool) (hlarge : large 0 = false)
    {sys : Sys K (Fin 1 → K) W} {jac : IeJac K W 1} (hs : sys.Defined) (hj : jac.Defined) (hh : IeHalts sys jac) (A : K → Matrix (Fin 1) (Fin 1) K)
    (c : K → Fin 1 → K) (hf : Returns sys fun x t => (A t).mulVec x + c t) (hJ : jac.Returns A) (t dt : K) (hreg : dt * A (t + dt) 0 0 ≠ 1) (s : IeState K 1 W) :
    (ieDoStep (ublasLu abs le 1) large sys jac t dt s).Sat
      (fun r s' => r = true ∧ IsImplicitEuler (fun x t => (A t).mulVec x + c t) s.x t dt s'.x) (fun _ s' => s'.x = s.x) False := by
  have hS := ublasLu_scalar abs le
  have hL : (ublasLu abs le 1).Solves := by
    constructor
    · intro m m' p b h
      by_cases h0 : m 0 0 = 0
      · rw [hS.singular m h0] at h; cases h
      · rw [hS.factorize m h0] at h
        cases h
        funext i
        rw [Subsingleton.elim i 0]
        simp only [Matrix.mulVec, dotProduct, Fin.sum_univ_one]
        rw [hS.substitute m b h0]
        field_simp
    · intro m p
      funext i
      rw [Subsingleton.elim i 0]
      simp [ublasLu, show List.range 1 = [0] from rfl, luUpper, luLower, luSwap, unFin]
  have h1 := implicit_euler_linear (ublasLu abs le 1) hL large hlarge hs hj hh A c hf hJ t dt s
  have h2 := implicit_euler_scalar (ublasLu abs le 1) hS large hs hj _ hf (fun _ t => A t 0 0) (fun x t w J w' h => by rw [hJ x t w J w' h]) t dt s
  refine Res.Sat.mono (h1.and h2) ?_ (fun _ _ h => h.1) (fun h => h.1)
  rintro r s' ⟨a1, a2⟩
  cases r with
  | true => exact ⟨rfl, a1⟩
  | false => exact absurd (sub_eq_zero.1 a2.2) hreg

/-- C42, one equation over the real numbers with a right-hand side that is Lipschitz in the state: when `do_step` returns, the residual of the implicit Euler
equation is at most `|dt| ( |f_x| + C ) ε`, with the derivative at the start value and the Lipschitz constant. -/
theorem implicit_euler_residual (L : Lu ℝ 1 Pm) (hL : L.Scalar) (ε : ℝ) {sys : Sys ℝ (Fin 1 → ℝ) W} {jac : IeJac ℝ W 1} (hs : sys.Defined) (hj : jac.Defined)
    (f : (Fin 1 → ℝ) → ℝ → Fin 1 → ℝ) (hf : Returns sys f) (df : (Fin 1 → ℝ) → ℝ → ℝ) (hJ : ∀ x t w J w', jac x t w = .ok J w' → J 0 0 = df x t)
    (t dt C : ℝ) (hC : ∀ x y, |f x (t + dt) 0 - f y (t + dt) 0| ≤ C * |x 0 - y 0|) (s : IeState ℝ 1 W) :
    (ieDoStep L (fun b => decide (ε < Real.sqrt (∑ i, b i * b i))) sys jac t dt s).Sat
      (fun r s' => r = true → |s.x 0 + dt * f s'.x (t + dt) 0 - s'.x 0| ≤ |dt| * (|df s.x (t + dt)| + C) * ε) (fun _ s' => s'.x = s.x) True := by
  refine (implicit_euler_scalar L hL _ hs hj f hf df hJ t dt s).mono ?_ (fun _ _ h => h) (fun h => h)
  intro r s' h hr
  subst hr
  rw [if_pos rfl] at h
  obtain ⟨-, m, b, hb, hy, hres⟩ := h
  have hb' : |b 0| ≤ ε := by
    simp only [Fin.sum_univ_one, decide_eq_false_iff_not, not_lt, Real.sqrt_mul_self_eq_abs] at hb
    exact hb
  have h1 : (dt * df s.x (t + dt) - 1) * b 0 = s.x 0 - m 0 + dt * f m (t + dt) 0 := congrFun hres 0
  have h2 : s'.x 0 = m 0 - b 0 := congrFun hy 0
  have h3 := hC s'.x m
  have h4 : |s'.x 0 - m 0| = |b 0| := by rw [h2, sub_sub_cancel_left, abs_neg]
  rw [h4] at h3
  have h5 : s.x 0 + dt * f s'.x (t + dt) 0 - s'.x 0 = dt * (df s.x (t + dt) * b 0 + (f s'.x (t + dt) 0 - f m (t + dt) 0)) := by
    rw [h2]; linear_combination -h1
  have hC0 : 0 ≤ C := by
    have := hC (fun _ => 1) (fun _ => 0)
    have h := abs_nonneg (f (fun _ => 1) (t + dt) 0 - f (fun _ => 0) (t + dt) 0)
    norm_num at this
    linarith
  rw [h5, abs_mul, mul_assoc]
  refine mul_le_mul_of_nonneg_left ?_ (abs_nonneg dt)
  calc _ ≤ |df s.x (t + dt)| * |b 0| + C * |b 0| := by
        refine le_trans (abs_add_le _ _) ?_
        rw [abs_mul]
        linarith
    _ = (|df s.x (t + dt)| + C) * |b 0| := by ring
    _ ≤ _ := mul_le_mul_of_nonneg_left hb' (by positivity)

end Verif
