import Verif.Lemmas.IntegrateFixed
import Verif.Spec.Dense

/-!
# Evaluating concrete runs

`run_eval` evaluates a run of a loop program on concrete data by the rules below, one rule per executed
statement.  It is used for counterexamples and non-vacuity examples only.
-/

namespace Verif
variable {W σ α β : Type}

theorem whileM_step_eval {cond : σ → Bool} {body : σ → M W σ} {s s' : σ} {w w' : W} {r : Res W σ}
    (hc : cond s = true) (hb : body s w = .ok s' w') (h : whileM cond body s' w' = r) :
    whileM cond body s w = r := by
  rw [whileM_step_ok hc hb, h]

theorem bind_eval {m : M W α} {f : α → M W β} {w w' : W} {a : α} {r : Res W β} (hm : m w = .ok a w')
    (h : f a w' = r) : (m >>= f) w = r := by
  rw [M.bind_ok hm, h]

theorem ite_pos_eval {c : Prop} [Decidable c] {m m' : M W α} {w : W} {r : Res W α} (hc : c)
    (h : m w = r) : (if c then m else m') w = r := by
  rw [if_pos hc, h]

theorem ite_neg_eval {c : Prop} [Decidable c] {m m' : M W α} {w : W} {r : Res W α} (hc : ¬ c)
    (h : m' w = r) : (if c then m else m') w = r := by
  rw [if_neg hc, h]

theorem exists_eval {m : Res W α} {P : α → W → Prop} {a : α} {w : W} (h : m = .ok a w) (hp : P a w) :
    ∃ a w, m = .ok a w ∧ P a w := ⟨a, w, h, hp⟩

/-- decide a condition on concrete times -/
macro "cond_eval" : tactic => `(tactic|
  focus (norm_num [TimeArith.lessEqWithSign, TimeArith.lessWithSign, TimeArith.minAbs, TimeArith.maxAbs,
    TimeArith.stdMin, TimeArith.stdMax, TimeArith.exact, gridTime, loggedDense, rampDense, headLessEq]; done))

macro "run_eval1" : tactic => `(tactic| first
  | (apply whileM_stop; cond_eval)
  | (apply whileM_step_eval; cond_eval)
  | apply bind_eval
  | (apply ite_pos_eval; cond_eval)
  | (apply ite_neg_eval; cond_eval)
  | rfl)

macro "run_eval" : tactic => `(tactic| repeat run_eval1)

end Verif
