import Verif.Props.ReversedControl
import Verif.Props.Rosenbrock
import Verif.Spec.RosenbrockControl

/-! # C95 for `rosenbrock4` and `rosenbrock4_controller` -/

namespace Verif
open SimCtx
variable {K V W Mat : Type} [Field K] [LinearOrder K] [IsStrictOrderedRing K] [AddCommGroup V] [Module K V] [Neg Mat]

omit [LinearOrder K] [IsStrictOrderedRing K] [AddCommGroup V] [Module K V] in
theorem reversedJac_bind {α : Type} (jac : Jac K V W Mat) (x : V) (t : K) (f : Mat × V → M W α) :
    (reversedJac jac x (-t) >>= f) = jac x t >>= fun r => f (-r.1, r.2) := by
  unfold reversedJac
  rw [neg_neg, bind_assoc]
  simp only [pure_bind]

omit [IsStrictOrderedRing K] in
/-- The step of the reversed system is the same. -/
theorem rosStep_reversed (C : RosCoef K) {solve : K → Mat → V → V} (hs : ∀ c J b, solve (-c) (-J) (-b) = solve c J b) (sys : Sys K V W) (jac : Jac K V W Mat)
    (x : V) (t dt : K) : rosStep C solve (reversedSys sys) (reversedJac jac) x (-t) (-dt) = rosStep C solve sys jac x t dt := by
  have nil : lin ([] : List (K × V)) = 0 := rfl
  have ht : ∀ c : K, -t + c * -dt = -(t + c * dt) := fun c => by ring
  have ht1 : -t + -dt = -(t + dt) := by ring
  unfold rosStep
  simp only [reversedSys_bind, reversedJac_bind, ht, ht1, div_neg, lin_cons, nil, neg_mul, neg_smul, smul_neg, add_zero, ← neg_add, hs]

/-- **C95**, `rosenbrock4` with a fixed step size, with a solver for which `( -A ) x = -b` has the same solution as `A x = b`. -/
theorem rosenbrock_reverses (C : RosCoef K) {solve : K → Mat → V → V} (hs : ∀ c J b, solve (-c) (-J) (-b) = solve c J b) (sys : Sys K V W) (jac : Jac K V W Mat)
    {eps : K} (heps : 0 ≤ eps) :
    BasicReverses eps (fun _ _ => True) (stepperObject fun x t dt => rosDoStep1 C solve sys jac x t dt)
      (stepperObject fun x t dt => rosDoStep1 C solve (reversedSys sys) (reversedJac jac) x t dt) := by
  refine basic_reverses heps ⟨?_, by intros; exact plainCtx_mono _ _⟩
  rintro q q' x _ t _ d _ w w' ⟨-, hw⟩ rfl rfl ⟨-, rfl⟩
  obtain rfl : w' = mirrorWorld w := hw
  have h1 := (ros_do_step C solve sys jac 0 0 0 t d ((q.set (.user 0) x).withWorld w.1)).2
  have h2 := (ros_do_step C solve (reversedSys sys) (reversedJac jac) 0 0 0 (-t) (-d) ((q'.set (.user 0) x).withWorld w.1)).2
  have e0 : ((q.set (.user 0) x).withWorld w.1).state (.user 0) = x := by simp [Heap.withWorld]
  have e0' : ((q'.set (.user 0) x).withWorld w.1).state (.user 0) = x := by simp [Heap.withWorld]
  rw [e0', rosStep_reversed C hs, show ((q'.set (.user 0) x).withWorld w.1).world = w.1 from rfl] at h2
  rw [e0, show ((q.set (.user 0) x).withWorld w.1).world = w.1 from rfl] at h1
  simp only [stepperObject, mirrorWorld]
  rw [show rosDoStep1 C solve sys jac (.user 0) t d = rosDoStep3 C solve sys jac (.user 0) t (.user 0) d from rfl,
    show rosDoStep1 C solve (reversedSys sys) (reversedJac jac) (.user 0) (-t) (-d) =
      rosDoStep3 C solve (reversedSys sys) (reversedJac jac) (.user 0) (-t) (.user 0) (-d) from rfl]
  cases e : rosStep C solve sys jac x t d w.1 with
  | ok r v =>
    rw [e] at h1 h2
    obtain ⟨g1, a1, b1, c1, -⟩ := h1
    obtain ⟨g2, a2, b2, c2, -⟩ := h2
    rw [a1, a2]
    refine .ok ⟨⟨trivial, ?_⟩, ?_⟩
    · show _ = _
      simp [mirrorWorld, b1, b2]
    · rw [c1, c2]
  | err y v =>
    rw [e] at h1 h2
    obtain ⟨g1, a1, b1, -⟩ := h1
    obtain ⟨g2, a2, b2, -⟩ := h2
    rw [a1, a2]
    refine .err ?_
    show _ = _
    simp [mirrorWorld, b1, b2]
  | ub => rw [e] at h1 h2; rw [h1, h2]; exact .ub
  | div => rw [e] at h1 h2; rw [h1, h2]; exact .div

/-! ## The controller -/

/-- the memory after the mirrored steps -/
def RosMem.neg (m : RosMem ℝ) : RosMem ℝ := ⟨m.first, m.errOld, -m.dtOld, m.lastRejected⟩

theorem rosMirrored_iff {V W : Type} {q q' : Heap ℝ V W} : RosMirrored q q' ↔ rosMem q' = (rosMem q).neg := by
  constructor
  · rintro ⟨h1, h2, h3, h4⟩
    cases h : rosMem q'
    rw [h] at h1 h2 h3 h4
    simp only at h1 h2 h3 h4
    simp [RosMem.neg, h1, h2, h3, h4]
  · intro h
    exact ⟨by rw [h]; rfl, by rw [h]; rfl, by rw [h]; rfl, by rw [h]; rfl⟩

theorem rosClamp_pos (f : ℝ) : 0 < rosClamp (realOps 0) f := by
  unfold rosClamp NumOps.max
  have : (0 : ℝ) < lit 1 / lit 6 := by simp [lit]
  split
  · rename_i h
    exact this.trans (by simpa [realOps] using h)
  · exact this

theorem rosDecide_neg (maxDt : ℝ) (m : RosMem ℝ) (dt err : ℝ) (hdt : dt ≠ 0) :
    rosDecide (realOps 0) (-maxDt) m.neg (-dt) err = ((rosDecide (realOps 0) maxDt m dt err).1, -(rosDecide (realOps 0) maxDt m dt err).2.1,
      (rosDecide (realOps 0) maxDt m dt err).2.2.neg) ∧ (rosDecide (realOps 0) maxDt m dt err).2.1 ≠ 0 := by
  have hlim : ∀ a : ℝ, a ≠ 0 → (if (!(realOps 0).eq (-maxDt) (lit 0)) = true then (realOps 0).time.minAbs (-maxDt) (-a) else -a) =
      -(if (!(realOps 0).eq maxDt (lit 0)) = true then (realOps 0).time.minAbs maxDt a else a) ∧
      (if (!(realOps 0).eq maxDt (lit 0)) = true then (realOps 0).time.minAbs maxDt a else a) ≠ 0 := by
    intro a ha
    have heq : ∀ a : ℝ, (realOps 0).eq a (lit 0) = decide (a = 0) := by intro a; simp [realOps, lit]
    rw [heq, heq]
    by_cases h : maxDt = 0
    · simp [h, ha]
    · have := minAbs_neg h ha
      simp only [neg_eq_zero, h, decide_false, Bool.not_false, if_true]
      exact this
  have hclip : ∀ a : ℝ, a ≠ 0 → (if (realOps 0).le (lit 0) (-dt) = true then (realOps 0).min (-a) (-dt) else (realOps 0).max (-a) (-dt)) =
      -(if (realOps 0).le (lit 0) dt = true then (realOps 0).min a dt else (realOps 0).max a dt) ∧
      (if (realOps 0).le (lit 0) dt = true then (realOps 0).min a dt else (realOps 0).max a dt) ≠ 0 := by
    intro a ha
    simp only [NumOps.min, NumOps.max, realOps, lit, Int.cast_zero, decide_eq_true_eq]
    rcases lt_or_gt_of_ne hdt with h | h
    · rw [if_pos (show (0 : ℝ) ≤ -dt by linarith), if_neg (show ¬ (0 : ℝ) ≤ dt by linarith)]
      constructor
      · by_cases h1 : a < dt
        · rw [if_pos h1, if_pos (by linarith)]
        · rw [if_neg h1, if_neg (by linarith)]
      · split <;> assumption
    · rw [if_neg (show ¬ (0 : ℝ) ≤ -dt by linarith), if_pos (show (0 : ℝ) ≤ dt by linarith)]
      constructor
      · by_cases h1 : dt < a
        · rw [if_pos h1, if_pos (by linarith)]
        · rw [if_neg h1, if_neg (by linarith)]
      · split <;> assumption
  have hmax : ∀ f g : ℝ, (realOps 0).max (rosClamp (realOps 0) f) (rosClamp (realOps 0) g) ≠ 0 := by
    intro f g
    unfold NumOps.max
    split
    · exact (rosClamp_pos g).ne'
    · exact (rosClamp_pos f).ne'
  have hq : ∀ f : ℝ, f ≠ 0 → dt / f ≠ 0 := fun f hf => div_ne_zero hdt hf
  cases m with
  | mk first errOld dtOld lastRej =>
    have hr : -dtOld / -dt = dtOld / dt := neg_div_neg_eq _ _
    have hnd : ∀ f : ℝ, -dt / f = -(dt / f) := fun f => neg_div f dt
    unfold rosDecide RosMem.neg
    dsimp only
    by_cases hle : (realOps 0).le err (lit 1) = true
    · simp only [hle, if_true, hr, hnd]
      cases first <;> cases lastRej <;> simp only [Bool.false_eq_true, if_true, if_false]
      · exact ⟨by rw [(hlim _ (hq _ (hmax _ _))).1], (hlim _ (hq _ (hmax _ _))).2⟩
      · have := hclip _ (hq _ (hmax ((realOps 0).pow err (frac 1 4) / rosSafe) (dtOld / dt * (realOps 0).pow (err * err / errOld) (frac 1 4) / rosSafe)))
        rw [this.1]
        exact ⟨by rw [(hlim _ this.2).1], (hlim _ this.2).2⟩
      · exact ⟨by rw [(hlim _ (hq _ (rosClamp_pos _).ne')).1], (hlim _ (hq _ (rosClamp_pos _).ne')).2⟩
      · have := hclip _ (hq _ (rosClamp_pos ((realOps 0).pow err (frac 1 4) / rosSafe)).ne')
        rw [this.1]
        exact ⟨by rw [(hlim _ this.2).1], (hlim _ this.2).2⟩
    · simp only [hle, hnd]
      exact ⟨rfl, hq _ (rosClamp_pos _).ne'⟩

/-- the trial with the negated step sizes, and the negated memory -/
noncomputable def rosTrialNeg {β : Type} (p : Trial ℝ β × RosMem ℝ) : Trial ℝ β × RosMem ℝ := (p.1.neg, p.2.neg)

omit [Neg Mat] in
theorem rosTrial_control {d : ℕ} (atol rtol maxDt : ℝ) (C : RosCoef ℝ) (solve : ℝ → Mat → (Fin d → ℝ) → Fin d → ℝ) (sys : Sys ℝ (Fin d → ℝ) W)
    (jac : Jac ℝ (Fin d → ℝ) W Mat) (m : RosMem ℝ) (x : Fin d → ℝ) (t dt : ℝ) : rosTrial (rosControl d atol rtol maxDt) C solve sys jac m x t dt =
      if (!(realOps 0).eq maxDt (lit 0) && (realOps 0).time.lessWithSign maxDt dt dt) = true then pure (.limited maxDt, m)
      else (do
        let r ← rosStep C solve sys jac x t dt
        let err := rosError (realOps 0) Real.sqrt atol rtol (List.ofFn (r.x ℝ)) (List.ofFn x) (List.ofFn r.g6)
        pure (if (rosDecide (realOps 0) maxDt m dt err).1 then .accepted r err (rosDecide (realOps 0) maxDt m dt err).2.1 else
          .rejected r err (rosDecide (realOps 0) maxDt m dt err).2.1, (rosDecide (realOps 0) maxDt m dt err).2.2)) := rfl

theorem rosTrial_reversed {d : ℕ} (atol rtol maxDt : ℝ) (C : RosCoef ℝ) {solve : ℝ → Mat → (Fin d → ℝ) → Fin d → ℝ}
    (hs : ∀ c J b, solve (-c) (-J) (-b) = solve c J b) (sys : Sys ℝ (Fin d → ℝ) W) (jac : Jac ℝ (Fin d → ℝ) W Mat) (m : RosMem ℝ) (x : Fin d → ℝ) (t dt : ℝ) (hdt : dt ≠ 0) :
    rosTrial (rosControl d atol rtol (-maxDt)) C solve (reversedSys sys) (reversedJac jac) m.neg x (-t) (-dt) =
      rosTrialNeg <$> rosTrial (rosControl d atol rtol maxDt) C solve sys jac m x t dt ∧
    ∀ w, (rosTrial (rosControl d atol rtol maxDt) C solve sys jac m x t dt w).Keeps (fun T _ => T.1.newDt ≠ 0) fun _ => True := by
  have hlim : (!(realOps 0).eq (-maxDt) (lit 0) && (realOps 0).time.lessWithSign (-maxDt) (-dt) (-dt)) =
      (!(realOps 0).eq maxDt (lit 0) && (realOps 0).time.lessWithSign maxDt dt dt) := by
    have e : (realOps 0).time = TimeArith.exact ℝ 0 := by simp [NumOps.time, TimeArith.exact, realOps, lit]
    have heq : ∀ a : ℝ, (realOps 0).eq a (lit 0) = decide (a = 0) := by intro a; simp [realOps, lit]
    rw [e, heq, heq]
    congr 1
    · simp
    · simp only [TimeArith.lessWithSign, TimeArith.exact, decide_eq_true_eq]
      rcases lt_or_gt_of_ne hdt with h1 | h1
      · rw [if_pos (by linarith), if_neg (by linarith), show -dt - -maxDt = maxDt - dt by ring]
      · rw [if_neg (by linarith), if_pos h1, show -maxDt - -dt = dt - maxDt by ring]
  rw [rosTrial_control, rosTrial_control, hlim, rosStep_reversed C hs]
  by_cases hl : (!(realOps 0).eq maxDt (lit 0) && (realOps 0).time.lessWithSign maxDt dt dt) = true
  · rw [if_pos hl, if_pos hl, map_pure]
    refine ⟨rfl, fun w => ?_⟩
    show maxDt ≠ 0
    intro h0
    simp [h0, realOps, lit] at hl
  · rw [if_neg hl, if_neg hl, map_bind]
    refine ⟨?_, fun w => ?_⟩
    · congr 1
      funext r
      dsimp only
      rw [(rosDecide_neg maxDt m dt _ hdt).1, map_pure]
      congr 1
      unfold rosTrialNeg
      split <;> rfl
    · refine Res.Keeps.bind (R := fun _ _ => True) ?_ fun r w _ => ?_
      · cases rosStep C solve sys jac x t dt w <;> trivial
      · have := (rosDecide_neg maxDt m dt (rosError (realOps 0) Real.sqrt atol rtol (List.ofFn (r.x ℝ)) (List.ofFn x) (List.ofFn r.g6)) hdt).2
        by_cases hc : (rosDecide (realOps 0) maxDt m dt (rosError (realOps 0) Real.sqrt atol rtol (List.ofFn (r.x ℝ)) (List.ofFn x) (List.ofFn r.g6))).1 = true
        · rw [if_pos hc]; exact this
        · rw [if_neg hc]; exact this

/-- **C95**, `rosenbrock4_controller`: with the limit `maxDt` forward and `-maxDt` backward, and the memories of mirrored steps. -/
theorem controlled_rosenbrock_reverses {d : ℕ} (atol rtol maxDt : ℝ) (C : RosCoef ℝ) {solve : ℝ → Mat → (Fin d → ℝ) → Fin d → ℝ}
    (hs : ∀ c J b, solve (-c) (-J) (-b) = solve c J b) (sys : Sys ℝ (Fin d → ℝ) W) (jac : Jac ℝ (Fin d → ℝ) W Mat) {eps : ℝ} (heps : 0 ≤ eps) :
    ControlledReverses eps RosMirrored (controlledObject (rosTry4 (rosControl d atol rtol maxDt) C solve sys jac))
      (controlledObject (rosTry4 (rosControl d atol rtol (-maxDt)) C solve (reversedSys sys) (reversedJac jac))) := by
  refine controlled_reverses heps ⟨?_, by intros; exact plainCtx_mono _ _⟩
  rintro q q' x _ t _ δ _ w w' ⟨hq, hw⟩ rfl rfl ⟨hd, rfl⟩
  obtain rfl : w' = mirrorWorld w := hw
  have h1 := ros_try_step (rosControl d atol rtol maxDt) C solve sys jac 0 t δ ((q.set (.user 0) x).withWorld w.1)
  have h2 := ros_try_step (rosControl d atol rtol (-maxDt)) C solve (reversedSys sys) (reversedJac jac) 0 (-t) (-δ) ((q'.set (.user 0) x).withWorld w.1)
  have e0 : ((q.set (.user 0) x).withWorld w.1).state (.user 0) = x := by simp [Heap.withWorld]
  have e0' : ((q'.set (.user 0) x).withWorld w.1).state (.user 0) = x := by simp [Heap.withWorld]
  have m0 : rosMem ((q.set (.user 0) x).withWorld w.1) = rosMem q := rfl
  have m0' : rosMem ((q'.set (.user 0) x).withWorld w.1) = (rosMem q).neg := (show rosMem q' = _ from rosMirrored_iff.1 hq)
  obtain ⟨r1, r2⟩ := rosTrial_reversed atol rtol maxDt C hs sys jac (rosMem q) x t δ hd
  have hn := r2 w.1
  rw [e0', m0', r1, show ((q'.set (.user 0) x).withWorld w.1).world = w.1 from rfl, map_eq_pure_bind, M.bind_apply] at h2
  rw [e0, m0, show ((q.set (.user 0) x).withWorld w.1).world = w.1 from rfl] at h1
  simp only [controlledObject, mirrorWorld]
  cases e : rosTrial (rosControl d atol rtol maxDt) C solve sys jac (rosMem q) x t δ w.1 with
  | ok T v =>
    rw [e] at h1 h2 hn
    obtain ⟨T, m⟩ := T
    obtain ⟨g1, a1, b1, c1, d1, -⟩ := h1
    obtain ⟨g2, a2, b2, c2, d2, -⟩ := h2
    rw [a1, a2]
    refine .ok ⟨⟨rosMirrored_iff.2 (by rw [c1, c2]), ?_⟩, ?_, ?_, ⟨?_, ?_⟩, ?_⟩
    · show _ = _
      simp [mirrorWorld, b1, b2]
    · rw [d1, d2]
      cases T <;> rfl
    · cases T <;> simp [NegT, Trial.out, Trial.neg, add_comm]
    · cases T <;> exact hn
    · cases T <;> rfl
    · cases T <;> rfl
  | err y v =>
    rw [e] at h1 h2
    obtain ⟨g1, a1, b1, -⟩ := h1
    obtain ⟨g2, a2, b2, -⟩ := h2
    rw [a1, a2]
    refine .err ?_
    show _ = _
    simp [mirrorWorld, b1, b2]
  | ub => rw [e] at h1 h2; rw [h1, h2]; exact .ub
  | div => rw [e] at h1 h2; rw [h1, h2]; exact .div

/-- Two new controllers are mirrored. -/
theorem rosMirrored_new {V W : Type} {q q' : Heap ℝ V W} (h : rosMem q = RosMem.new) (h' : rosMem q' = RosMem.new) : RosMirrored q q' := by
  rw [rosMirrored_iff, h, h']
  simp [RosMem.new, RosMem.neg, lit]

/-- Non-vacuity: one component, and division as solver. -/
example (sys : Sys ℝ (Fin 1 → ℝ) ℕ) (jac : Jac ℝ (Fin 1 → ℝ) ℕ ℝ) :
    ControlledReverses 0 RosMirrored
      (controlledObject (rosTry4 (rosControl 1 1 1 5) defaultRosenbrock (fun c (J : ℝ) (b : Fin 1 → ℝ) i => b i / (c - J)) sys jac))
      (controlledObject (rosTry4 (rosControl 1 1 1 (-5)) defaultRosenbrock (fun c (J : ℝ) (b : Fin 1 → ℝ) i => b i / (c - J)) (reversedSys sys) (reversedJac jac))) :=
  controlled_rosenbrock_reverses 1 1 5 _ (fun c J b => by
    funext i
    rw [Pi.neg_apply, show -c - -J = -(c - J) by ring, neg_div_neg_eq]) sys jac le_rfl

end Verif
