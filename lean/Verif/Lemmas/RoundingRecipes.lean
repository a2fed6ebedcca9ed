import Verif.Lemmas.RoundingCalculus
import Mathlib.Tactic.NormNum

/-! # The step recipes with rounding -/

namespace Verif

variable {W : Type} {d : ℕ} {f : (Fin d → ℝ) → ℝ → Fin d → ℝ} {κ : ℝ → ℝ} {R : ℝ}

/-- The computation returns `a`. -/
def Yields {α : Type} (m : M W α) (a : α) : Prop := ∀ w, ∃ w', m w = .ok a w'

theorem Yields.pure {α : Type} (a : α) : Yields (Pure.pure a : M W α) a := fun w => ⟨w, rfl⟩

theorem Yields.bind {α β : Type} {m : M W α} {a : α} {k : α → M W β} {b : β} (h1 : Yields m a) (h2 : Yields (k a) b) : Yields (m >>= k) b := by
  intro w
  obtain ⟨w1, e1⟩ := h1 w
  obtain ⟨w2, e2⟩ := h2 w1
  exact ⟨w2, by rw [M.bind_ok e1, e2]⟩

/-- the system function with exact results -/
def exactSys (f : (Fin d → ℝ) → ℝ → Fin d → ℝ) : Sys ℝ (Fin d → ℝ) Unit := fun x t => Pure.pure (f x t)

theorem exactSys_evaluates (f : (Fin d → ℝ) → ℝ → Fin d → ℝ) : Evaluates (exactSys f) f := fun _ _ w => ⟨w, rfl⟩

/-- The computation with rounding and the exact one return values related by `Q`. -/
def RSim {α' : RoundedStep W d → Type} {α : Type} (Q : ((e : RoundedStep W d) → α' e) → (RoundedStep W d → α) → Prop)
    (m' : (e : RoundedStep W d) → M W (α' e)) (m : RoundedStep W d → M Unit α) : Prop :=
  ∃ v' v, Q v' v ∧ (∀ e, Evaluates e.sys (flSys e.g) → Yields (m' e) (v' e)) ∧ ∀ e, Yields (m e) (v e)

theorem RSim.pure {α' : RoundedStep W d → Type} {α : Type} {Q : ((e : RoundedStep W d) → α' e) → (RoundedStep W d → α) → Prop}
    {v' : (e : RoundedStep W d) → α' e} {v : RoundedStep W d → α} (h : Q v' v) :
    RSim Q (fun e => (Pure.pure (v' e) : M W (α' e))) fun e => Pure.pure (v e) :=
  ⟨v', v, h, fun _ _ => Yields.pure _, fun _ => Yields.pure _⟩

theorem RSim.bind {α' β' : RoundedStep W d → Type} {α β : Type} {Q : ((e : RoundedStep W d) → α' e) → (RoundedStep W d → α) → Prop}
    {P : ((e : RoundedStep W d) → β' e) → (RoundedStep W d → β) → Prop}
    {m' : (e : RoundedStep W d) → M W (α' e)} {m : RoundedStep W d → M Unit α} (h : RSim Q m' m)
    {k' : (e : RoundedStep W d) → α' e → M W (β' e)} {k : RoundedStep W d → α → M Unit β}
    (hk : ∀ v' v, Q v' v → RSim P (fun e => k' e (v' e)) fun e => k e (v e)) :
    RSim P (fun e => m' e >>= k' e) fun e => m e >>= k e := by
  obtain ⟨v', v, hq, h1, h2⟩ := h
  obtain ⟨z', z, hp, h3, h4⟩ := hk v' v hq
  exact ⟨z', z, hp, fun e he => (h1 e he).bind (h3 e he), fun e => (h2 e).bind (h4 e)⟩

variable (f κ R) in
/-- states that differ by `O(u)` -/
abbrev NearQ (v' : (e : RoundedStep W d) → Fin d → Fl e.ρ) (v : RoundedStep W d → Fin d → ℝ) : Prop := NearV f κ R v' v

theorem RSim.sys (hf : ContDiff ℝ 1 fun z : (Fin d → ℝ) × ℝ => f z.1 z.2) {v' : (e : RoundedStep W d) → Fin d → Fl e.ρ} {v : RoundedStep W d → Fin d → ℝ}
    (hv : NearV f κ R v' v) {a' : (e : RoundedStep W d) → Fl e.ρ} {a : RoundedStep W d → ℝ} (ha : Near f κ R a' a) :
    RSim (NearQ f κ R) (fun e => e.sys (v' e) (a' e)) fun e => exactSys f (v e) (a e) :=
  ⟨fun e => flSys e.g (v' e) (a' e), fun e => f (v e) (a e), NearV.sys hf hv ha, fun _ he => he _ _, fun _ => exactSys_evaluates f _ _⟩

/-- the same with the value of the call -/
theorem RSim.sys_value (hf : ContDiff ℝ 1 fun z : (Fin d → ℝ) × ℝ => f z.1 z.2) {v' : (e : RoundedStep W d) → Fin d → Fl e.ρ}
    {v : RoundedStep W d → Fin d → ℝ} (hv : NearV f κ R v' v) {a' : (e : RoundedStep W d) → Fl e.ρ} {a : RoundedStep W d → ℝ} (ha : Near f κ R a' a) :
    RSim (fun z' z => NearQ f κ R z' z ∧ z' = fun e => flSys e.g (v' e) (a' e)) (fun e => e.sys (v' e) (a' e)) fun e => exactSys f (v e) (a e) :=
  ⟨fun e => flSys e.g (v' e) (a' e), fun e => f (v e) (a e), ⟨NearV.sys hf hv ha, rfl⟩, fun _ he => he _ _, fun _ => exactSys_evaluates f _ _⟩

/-! ## The inputs of a step -/

/-- time, step size, state and derivative as numbers of the format -/
def RoundedStep.tF (e : RoundedStep W d) : Fl e.ρ := .of e.t'
@[inherit_doc RoundedStep.tF] def RoundedStep.hF (e : RoundedStep W d) : Fl e.ρ := .of e.h
@[inherit_doc RoundedStep.tF] def RoundedStep.xF (e : RoundedStep W d) : Fin d → Fl e.ρ := e.x
@[inherit_doc RoundedStep.tF] def RoundedStep.kF (e : RoundedStep W d) : Fin d → Fl e.ρ := e.k

theorem near_t : Near f κ R (fun e : RoundedStep W d => e.tF) fun e => e.t :=
  Near.intro 1 R R fun _ he => ⟨he.t_le, he.t_close⟩

theorem near_h : Near f κ R (fun e : RoundedStep W d => e.hF) fun e => e.h :=
  Near.intro 1 1 0 fun _ he => ⟨he.h_le, by simp [RoundedStep.hF, Fl.of]⟩

theorem near_x : NearV f κ R (fun e : RoundedStep W d => e.xF) fun e => e.x :=
  NearV.intro 1 R 0 fun _ he => ⟨he.x_le, by simp [RoundedStep.xF]⟩

theorem near_k (hf : ContDiff ℝ 1 fun z : (Fin d → ℝ) × ℝ => f z.1 z.2) : NearV f κ R (fun e : RoundedStep W d => e.kF) fun e => f e.x e.t := by
  obtain ⟨L, -, hL⟩ := lipschitz_on_bounded hf R
  exact NearV.intro 1 L R fun e he => ⟨(hL e.x e.x e.t e.t he.x_le he.x_le he.t_le he.t_le).1, he.k_close⟩

theorem near_lit1 : Near f κ R (fun e : RoundedStep W d => (lit 1 : Fl e.ρ)) fun _ => (lit 1 : ℝ) := Near.fl_lit 1

/-! ## Runge-Kutta steps given by tableaus -/

variable (f κ R) in
/-- lists of coefficients that differ by `O(u)` -/
inductive NearS : ((e : RoundedStep W d) → List (Fl e.ρ)) → (RoundedStep W d → List ℝ) → Prop
  | nil : NearS (fun _ => []) fun _ => []
  | cons {a' : (e : RoundedStep W d) → Fl e.ρ} {a : RoundedStep W d → ℝ} {l' : (e : RoundedStep W d) → List (Fl e.ρ)} {l : RoundedStep W d → List ℝ}
      (ha : Near f κ R a' a) (hl : NearS l' l) : NearS (fun e => a' e :: l' e) fun e => a e :: l e

variable (f κ R) in
/-- lists of states that differ by `O(u)` -/
inductive NearVs : ((e : RoundedStep W d) → List (Fin d → Fl e.ρ)) → (RoundedStep W d → List (Fin d → ℝ)) → Prop
  | nil : NearVs (fun _ => []) fun _ => []
  | cons {v' : (e : RoundedStep W d) → Fin d → Fl e.ρ} {v : RoundedStep W d → Fin d → ℝ} {l' : (e : RoundedStep W d) → List (Fin d → Fl e.ρ)}
      {l : RoundedStep W d → List (Fin d → ℝ)} (hv : NearV f κ R v' v) (hl : NearVs l' l) : NearVs (fun e => v' e :: l' e) fun e => v e :: l e

variable (f κ R) in
/-- rows of tableaus that differ by `O(u)` -/
inductive NearRows : ((e : RoundedStep W d) → List (Fl e.ρ × List (Fl e.ρ))) → (RoundedStep W d → List (ℝ × List ℝ)) → Prop
  | nil : NearRows (fun _ => []) fun _ => []
  | cons {c' : (e : RoundedStep W d) → Fl e.ρ} {c : RoundedStep W d → ℝ} {a' : (e : RoundedStep W d) → List (Fl e.ρ)} {a : RoundedStep W d → List ℝ}
      {l' : (e : RoundedStep W d) → List (Fl e.ρ × List (Fl e.ρ))} {l : RoundedStep W d → List (ℝ × List ℝ)}
      (hc : Near f κ R c' c) (ha : NearS f κ R a' a) (hl : NearRows l' l) : NearRows (fun e => (c' e, a' e) :: l' e) fun e => (c e, a e) :: l e

theorem NearVs.snoc {l' : (e : RoundedStep W d) → List (Fin d → Fl e.ρ)} {l : RoundedStep W d → List (Fin d → ℝ)} (hl : NearVs f κ R l' l)
    {v' : (e : RoundedStep W d) → Fin d → Fl e.ρ} {v : RoundedStep W d → Fin d → ℝ} (hv : NearV f κ R v' v) :
    NearVs f κ R (fun e => l' e ++ [v' e]) fun e => l e ++ [v e] := by
  induction hl with
  | nil => exact .cons hv .nil
  | cons hv1 _ ih => exact .cons hv1 ih

theorem NearS.zip {a' : (e : RoundedStep W d) → List (Fl e.ρ)} {a : RoundedStep W d → List ℝ} (ha : NearS f κ R a' a) :
    ∀ {l' : (e : RoundedStep W d) → List (Fin d → Fl e.ρ)} {l : RoundedStep W d → List (Fin d → ℝ)}, NearVs f κ R l' l →
      NearL f κ R (fun e => ((a' e).map (· * e.hF)).zip (l' e)) fun e => ((a e).map (· * e.h)).zip (l e) := by
  induction ha with
  | nil => intro l' l _; exact .nil
  | cons ha _ ih =>
    intro l' l hl
    cases hl with
    | nil => exact .nil
    | cons hv hl => exact .cons (Near.fl_mul ha near_h) hv (ih hl)

theorem sim_stages (hf : ContDiff ℝ 1 fun z : (Fin d → ℝ) × ℝ => f z.1 z.2)
    {rows' : (e : RoundedStep W d) → List (Fl e.ρ × List (Fl e.ρ))} {rows : RoundedStep W d → List (ℝ × List ℝ)} (h : NearRows f κ R rows' rows) :
    ∀ {ks' : (e : RoundedStep W d) → List (Fin d → Fl e.ρ)} {ks : RoundedStep W d → List (Fin d → ℝ)}, NearVs f κ R ks' ks →
      RSim (NearVs f κ R) (fun e => rkStages e.sys e.xF e.tF e.hF (rows' e) (ks' e))
        fun e => rkStages (exactSys f) e.x e.t e.h (rows e) (ks e) := by
  induction h with
  | nil => intro ks' ks hks; exact .pure hks
  | cons hc ha _ ih =>
    intro ks' ks hks
    exact RSim.bind (RSim.sys (κ := κ) (R := R) hf (NearL.cons near_lit1 near_x (ha.zip hks)).lin (Near.fl_add near_t (Near.fl_mul hc near_h)))
      fun v' v hv => ih (hks.snoc hv)

theorem sim_rkStep (hf : ContDiff ℝ 1 fun z : (Fin d → ℝ) × ℝ => f z.1 z.2) {T' : (e : RoundedStep W d) → Tableau (Fl e.ρ)} {T : Tableau ℝ}
    (h1 : NearRows f κ R (fun e => (T' e).c.tail.zip (T' e).a) fun _ => T.c.tail.zip T.a) (h2 : NearS f κ R (fun e => (T' e).b) fun _ => T.b) :
    RSim (NearQ f κ R) (fun e => rkStep (T' e) e.sys e.xF e.kF e.tF e.hF)
      fun e => rkStep T (exactSys f) e.x (f e.x e.t) e.t e.h :=
  RSim.bind (sim_stages hf h1 (.cons (near_k hf) .nil)) fun _ _ hv => .pure (NearL.cons near_lit1 near_x (h2.zip hv)).lin

/-- the coefficients of the tableaus -/
macro "near_coeffs" : tactic => `(tactic| repeat' (first
  | exact Near.fl_frac _ (by norm_num) | exact Near.fl_lit _ | exact NearS.nil | exact NearRows.nil | exact NearL.nil
  | apply NearRows.cons | apply NearS.cons))

theorem near_rk4 : NearRows f κ R (fun e : RoundedStep W d => (rk4Tableau : Tableau (Fl e.ρ)).c.tail.zip rk4Tableau.a)
      (fun _ => (rk4Tableau : Tableau ℝ).c.tail.zip rk4Tableau.a) ∧
    NearS f κ R (fun e : RoundedStep W d => (rk4Tableau : Tableau (Fl e.ρ)).b) fun _ => (rk4Tableau : Tableau ℝ).b := by
  simp only [rk4Tableau, List.tail_cons, List.zip_cons_cons, List.zip_nil_right]
  constructor <;> near_coeffs

theorem near_cashKarp : NearRows f κ R (fun e : RoundedStep W d => (cashKarpTableau : Tableau (Fl e.ρ)).c.tail.zip cashKarpTableau.a)
      (fun _ => (cashKarpTableau : Tableau ℝ).c.tail.zip cashKarpTableau.a) ∧
    NearS f κ R (fun e : RoundedStep W d => (cashKarpTableau : Tableau (Fl e.ρ)).b) fun _ => (cashKarpTableau : Tableau ℝ).b := by
  simp only [cashKarpTableau, List.tail_cons, List.zip_cons_cons, List.zip_nil_right]
  constructor <;> near_coeffs

theorem near_fehlberg : NearRows f κ R (fun e : RoundedStep W d => (fehlbergTableau : Tableau (Fl e.ρ)).c.tail.zip fehlbergTableau.a)
      (fun _ => (fehlbergTableau : Tableau ℝ).c.tail.zip fehlbergTableau.a) ∧
    NearS f κ R (fun e : RoundedStep W d => (fehlbergTableau : Tableau (Fl e.ρ)).b) fun _ => (fehlbergTableau : Tableau ℝ).b := by
  simp only [fehlbergTableau, List.tail_cons, List.zip_cons_cons, List.zip_nil_right]
  constructor <;> near_coeffs

/-! ## The steps with formulas of their own -/

/-- scalars and linear combinations with known states -/
macro "near_terms" : tactic => `(tactic| repeat' (first
  | exact Near.fl_frac _ (by norm_num) | exact Near.fl_lit _ | exact NearL.nil | exact near_h | exact near_t | exact near_x | assumption
  | apply NearL.cons | apply Near.fl_div | apply Near.fl_mul | apply Near.fl_add | apply Near.fl_sub | norm_num))

theorem sim_euler (hf : ContDiff ℝ 1 fun z : (Fin d → ℝ) × ℝ => f z.1 z.2) :
    RSim (NearQ f κ R) (fun e : RoundedStep W d => eulerStep e.sys e.xF e.kF e.tF e.hF)
      fun e => eulerStep (exactSys f) e.x (f e.x e.t) e.t e.h := by
  have hk := near_k (W := W) (κ := κ) (R := R) hf
  exact .pure (NearL.lin (.cons near_lit1 near_x (.cons near_h hk .nil)))

theorem sim_rk4Classic (hf : ContDiff ℝ 1 fun z : (Fin d → ℝ) × ℝ => f z.1 z.2) :
    RSim (NearQ f κ R) (fun e : RoundedStep W d => rk4ClassicStep e.sys e.xF e.kF e.tF e.hF)
      fun e => rk4ClassicStep (exactSys f) e.x (f e.x e.t) e.t e.h := by
  have h1 := near_k (W := W) (κ := κ) (R := R) hf
  unfold rk4ClassicStep
  refine RSim.bind (RSim.sys (κ := κ) (R := R) hf (NearL.lin (by near_terms)) (by near_terms)) fun _ _ h2 => ?_
  refine RSim.bind (RSim.sys (κ := κ) (R := R) hf (NearL.lin (by near_terms)) (by near_terms)) fun _ _ h3 => ?_
  refine RSim.bind (RSim.sys (κ := κ) (R := R) hf (NearL.lin (by near_terms)) (by near_terms)) fun _ _ h4 => ?_
  exact .pure (NearL.lin (by near_terms))

theorem sim_cashKarpClassic (hf : ContDiff ℝ 1 fun z : (Fin d → ℝ) × ℝ => f z.1 z.2) :
    RSim (NearQ f κ R) (fun e : RoundedStep W d => cashKarpClassicStep e.sys e.xF e.kF e.tF e.hF)
      fun e => cashKarpClassicStep (exactSys f) e.x (f e.x e.t) e.t e.h := by
  have h1 := near_k (W := W) (κ := κ) (R := R) hf
  unfold cashKarpClassicStep
  refine RSim.bind (α' := fun e => (Fin d → Fl e.ρ) × (Fin d → Fl e.ρ) × (Fin d → Fl e.ρ) × (Fin d → Fl e.ρ) × (Fin d → Fl e.ρ))
    (Q := fun v' v => NearQ f κ R (fun e => (v' e).2.2.2.2) fun e => (v e).2.2.2.2) ?_ fun _ _ h => .pure h
  unfold cashKarpClassicStages
  refine RSim.bind (RSim.sys (κ := κ) (R := R) hf (NearL.lin (by near_terms)) (by near_terms)) fun _ _ h2 => ?_
  refine RSim.bind (RSim.sys (κ := κ) (R := R) hf (NearL.lin (by near_terms)) (by near_terms)) fun _ _ h3 => ?_
  refine RSim.bind (RSim.sys (κ := κ) (R := R) hf (NearL.lin (by near_terms)) (by near_terms)) fun _ _ h4 => ?_
  refine RSim.bind (RSim.sys (κ := κ) (R := R) hf (NearL.lin (by near_terms)) (by near_terms)) fun _ _ h5 => ?_
  refine RSim.bind (RSim.sys (κ := κ) (R := R) hf (NearL.lin (by near_terms)) (by near_terms)) fun _ _ h6 => ?_
  exact .pure (NearL.lin (by near_terms))

variable (f κ R) in
/-- results of the leap-frog recursion that differ by `O(u)` -/
def NearLeap (v' : (e : RoundedStep W d) → (Fin d → Fl e.ρ) × (Fin d → Fl e.ρ) × (Fin d → Fl e.ρ))
    (v : RoundedStep W d → (Fin d → ℝ) × (Fin d → ℝ) × (Fin d → ℝ)) : Prop :=
  NearQ f κ R (fun e => (v' e).1) (fun e => (v e).1) ∧ NearQ f κ R (fun e => (v' e).2.1) (fun e => (v e).2.1) ∧
    NearQ f κ R (fun e => (v' e).2.2) fun e => (v e).2.2

theorem sim_leapFrog (hf : ContDiff ℝ 1 fun z : (Fin d → ℝ) × ℝ => f z.1 z.2) {a' : (e : RoundedStep W d) → Fl e.ρ} {a : RoundedStep W d → ℝ}
    (ha : Near f κ R a' a) (n : ℕ) : ∀ {th' : (e : RoundedStep W d) → Fl e.ρ} {th : RoundedStep W d → ℝ} {x0' x1' k' : (e : RoundedStep W d) → Fin d → Fl e.ρ}
      {x0 x1 k : RoundedStep W d → Fin d → ℝ}, Near f κ R th' th → NearV f κ R x0' x0 → NearV f κ R x1' x1 → NearV f κ R k' k →
      RSim (NearLeap f κ R) (fun e => leapFrog e.sys (a' e) n (th' e) (x0' e) (x1' e) (k' e))
        fun e => leapFrog (exactSys f) (a e) n (th e) (x0 e) (x1 e) (k e) := by
  induction n with
  | zero => intro th' th x0' x1' k' x0 x1 k _ h0 h1 hk; exact .pure ⟨h0, h1, hk⟩
  | succ n ih =>
    intro th' th x0' x1' k' x0 x1 k ht h0 h1 hk
    have h2 := NearL.lin (.cons near_lit1 h0 (.cons (Near.fl_mul (Near.fl_lit 2) ha) hk .nil))
    exact RSim.bind (RSim.sys (κ := κ) (R := R) hf h2 (Near.fl_add ht ha)) fun _ _ h3 => ih (Near.fl_add ht ha) h1 h2 h3

theorem sim_midpoint (hf : ContDiff ℝ 1 fun z : (Fin d → ℝ) × ℝ => f z.1 z.2) {m : ℕ} (hm : 1 ≤ m) :
    RSim (NearQ f κ R) (fun e : RoundedStep W d => midpointStep m e.sys e.xF e.kF e.tF e.hF)
      fun e => midpointStep m (exactSys f) e.x (f e.x e.t) e.t e.h := by
  have h1 := near_k (W := W) (κ := κ) (R := R) hf
  have ha := Near.fl_div (n := (m : ℤ)) (near_h (f := f) (κ := κ) (R := R) (W := W)) (by omega)
  have h2 := NearL.lin (.cons near_lit1 near_x (.cons ha h1 .nil))
  refine RSim.bind (RSim.sys (κ := κ) (R := R) hf h2 (Near.fl_add near_t ha)) fun _ _ h3 => ?_
  refine RSim.bind (sim_leapFrog hf ha (m - 1) (Near.fl_add near_t ha) near_x h2 h3) fun _ _ h => ?_
  obtain ⟨r1, r2, r3⟩ := h
  exact .pure (NearL.lin (.cons (Near.fl_frac 1 (by norm_num)) r1 (.cons (Near.fl_frac 1 (by norm_num)) r2
    (.cons (Near.fl_mul (Near.fl_frac 1 (by norm_num)) ha) r3 .nil))))

variable (f κ R) in
/-- results of a Dormand-Prince step that differ by `O(u)` -/
def NearDopri (v' : (e : RoundedStep W d) → Dopri5Result (Fin d → Fl e.ρ)) (v : RoundedStep W d → Dopri5Result (Fin d → ℝ)) : Prop :=
  NearQ f κ R (fun e => (v' e).x) (fun e => (v e).x) ∧ ∀ e, (v' e).k7 = flSys e.g (v' e).x (e.tF + e.hF)

theorem sim_dopri5 (hf : ContDiff ℝ 1 fun z : (Fin d → ℝ) × ℝ => f z.1 z.2) :
    RSim (NearDopri f κ R) (fun e : RoundedStep W d => dopri5Step e.sys e.xF e.kF e.tF e.hF)
      fun e => dopri5Step (exactSys f) e.x (f e.x e.t) e.t e.h := by
  have h1 := near_k (W := W) (κ := κ) (R := R) hf
  unfold dopri5Step
  refine RSim.bind (RSim.sys (κ := κ) (R := R) hf (NearL.lin (by near_terms)) (by near_terms)) fun _ _ h2 => ?_
  refine RSim.bind (RSim.sys (κ := κ) (R := R) hf (NearL.lin (by near_terms)) (by near_terms)) fun _ _ h3 => ?_
  refine RSim.bind (RSim.sys (κ := κ) (R := R) hf (NearL.lin (by near_terms)) (by near_terms)) fun _ _ h4 => ?_
  refine RSim.bind (RSim.sys (κ := κ) (R := R) hf (NearL.lin (by near_terms)) (by near_terms)) fun _ _ h5 => ?_
  refine RSim.bind (RSim.sys (κ := κ) (R := R) hf (NearL.lin (by near_terms)) (by near_terms)) fun _ _ h6 => ?_
  have h7 := NearL.lin (.cons (near_lit1 (f := f) (κ := κ) (R := R)) near_x (.cons (Near.fl_mul near_h (Near.fl_frac 35 (q := 384) (by norm_num))) h1
    (.cons (Near.fl_mul near_h (Near.fl_frac 500 (q := 1113) (by norm_num))) h3 (.cons (Near.fl_mul near_h (Near.fl_frac 125 (q := 192) (by norm_num))) h4
    (.cons (Near.fl_mul near_h (Near.fl_frac (-2187) (q := 6784) (by norm_num))) h5
    (.cons (Near.fl_mul near_h (Near.fl_frac 11 (q := 84) (by norm_num))) h6 .nil))))))
  exact RSim.bind (RSim.sys_value (κ := κ) (R := R) hf h7 (Near.fl_add near_t near_h)) fun _ _ h8 => .pure ⟨h7, fun e => congrFun h8.2 e⟩

/-- **one step with rounding**: all steppers -/
theorem sim_recipe (hf : ContDiff ℝ 1 fun z : (Fin d → ℝ) × ℝ => f z.1 z.2) (s : FixedStepper) (hs : (s.stepper ℝ).WellFormed) :
    RSim (NearQ f κ R) (fun e : RoundedStep W d => (s.stepper (Fl e.ρ)).recipe e.sys e.xF e.kF e.tF e.hF)
      fun e => (s.stepper ℝ).recipe (exactSys f) e.x (f e.x e.t) e.t e.h := by
  cases s with
  | euler => exact sim_euler hf
  | rk4 => exact sim_rkStep hf near_rk4.1 near_rk4.2
  | rk4Classic => exact sim_rk4Classic hf
  | cashKarp => exact sim_rkStep hf near_cashKarp.1 near_cashKarp.2
  | cashKarpClassic => exact sim_cashKarpClassic hf
  | fehlberg => exact sim_rkStep hf near_fehlberg.1 near_fehlberg.2
  | midpoint m => exact sim_midpoint hf hs.1

end Verif
