import Verif.Lemmas.Rescale

/-!
# C74: the unit and the origin of time

Exact arithmetic.  A problem is integrated twice, the second time with all times measured in another unit and from another origin: `c * t + b` instead of `t`
and `c * dt` instead of `dt`, with `c > 0`.  If the tolerance of the time comparisons is measured in the new unit as well, the same steps are made
and the same states are observed.
-/

namespace Verif
variable {Q S K : Type} [Field K] [LinearOrder K] [IsStrictOrderedRing K]

/-- **C74** (plain steppers), for arbitrary steppers. -/
theorem rescale_basic {c b : K} (hc : 0 < c) (eps : K) (step : Q → S → K → K → Except Err (Q × S))
    (q : Q) (x : S) (t0 t1 dt : K) (n : ℕ) (l : List K) (w : Log S K) :
    let A := TimeArith.exact K eps
    let A' := TimeArith.exact K (c * eps)
    let st := loggedBasic step
    let st' := loggedBasic (rescaleStep c b step)
    integrateNStepsBasic A' st' record q x (c * t0 + b) (c * dt) n (w.rescale c b) =
      (integrateNStepsBasic A st record q x t0 dt n w).image (fun r => (r.1, c * r.2 + b)) (Log.rescale c b) ∧
    integrateConstBasic A' st' record q x (c * t0 + b) (c * t1 + b) (c * dt) (w.rescale c b) =
      (integrateConstBasic A st record q x t0 t1 dt w).image id (Log.rescale c b) ∧
    integrateAdaptiveBasic A' st' record q x (c * t0 + b) (c * t1 + b) (c * dt) (w.rescale c b) =
      (integrateAdaptiveBasic A st record q x t0 t1 dt w).image id (Log.rescale c b) ∧
    integrateTimesBasic A' st' record q x (l.map (c * · + b)) (c * dt) (w.rescale c b) =
      (integrateTimesBasic A st record q x l dt w).image id (Log.rescale c b) := by
  intro A A' st st'
  have hA := scaleTimeRel (b := b) hc eps
  have hst := scale_basic_sim (b := b) hc step
  have ho := scale_obs_sim (Q := Q) (S := S) (K := K) (c := c) (b := b)
  have hJ : ScaleJ c b q q w (w.rescale c b) := ⟨rfl, rfl⟩
  have hd : ScaleD c dt (c * dt) := rfl
  have hl : List.Forall₂ (ScaleT c b) l (l.map (c * · + b)) := by
    rw [List.forall₂_map_right_iff]; exact List.forall₂_same.mpr fun _ _ => rfl
  refine ⟨scale_image_eq ?_ (integrateNStepsBasic_sim hA hst ho n hJ rfl rfl hd),
    scale_image_eq ?_ (integrateConstBasic_sim hA hst ho (fun _ _ => False)
      (fun _ _ _ _ _ _ h _ => h.elim) hJ rfl rfl rfl hd),
    scale_image_eq ?_ (integrateAdaptiveBasic_sim hA hst ho (fun _ _ _ _ h => ⟨rfl, h.2⟩) hJ rfl rfl rfl
      hd), scale_image_eq ?_ (integrateTimesBasic_sim hA hst ho hl hJ rfl hd)⟩
  · rintro ⟨_, _⟩ ⟨_, _⟩ p p' ⟨⟨_, _, _, h⟩, h1, h2⟩; exact ⟨Prod.ext h1.symm h2, h⟩
  · rintro ⟨_, _⟩ ⟨_, _⟩ p p' ⟨⟨_, _, _, h⟩, -, h1, h2⟩; exact ⟨Prod.ext h1.symm h2.symm, h⟩
  · rintro ⟨_, _⟩ ⟨_, _⟩ p p' ⟨⟨_, _, _, h⟩, h1, h2⟩; exact ⟨Prod.ext h1.symm h2.symm, h⟩
  · rintro ⟨_, _⟩ ⟨_, _⟩ p p' ⟨⟨_, _, _, h⟩, h1, h2⟩; exact ⟨Prod.ext h1.symm h2.symm, h⟩

/-- **C74** (controlled steppers), for arbitrary steppers. -/
theorem rescale_controlled {c b : K} (hc : 0 < c) (eps : K) (f : Q → S → K → K → Except Err (TryResult Q S K))
    (q : Q) (x : S) (t0 t1 dt : K) (n : ℕ) (l : List K) (w : Log S K) :
    let A := TimeArith.exact K eps
    let A' := TimeArith.exact K (c * eps)
    let st := loggedControlled f
    let st' := loggedControlled (rescaleTry c b f)
    integrateNStepsControlled A' st' record q x (c * t0 + b) (c * dt) n (w.rescale c b) =
      (integrateNStepsControlled A st record q x t0 dt n w).image (fun r => (r.1, c * r.2 + b)) (Log.rescale c b) ∧
    integrateConstControlled A' st' record q x (c * t0 + b) (c * t1 + b) (c * dt) (w.rescale c b) =
      (integrateConstControlled A st record q x t0 t1 dt w).image id (Log.rescale c b) ∧
    integrateAdaptiveControlled A' st' record q x (c * t0 + b) (c * t1 + b) (c * dt) (w.rescale c b) =
      (integrateAdaptiveControlled A st record q x t0 t1 dt w).image
        (fun r => ⟨r.x, c * r.t + b, c * r.dt, r.count⟩) (Log.rescale c b) ∧
    integrateTimesControlled A' st' record q x (l.map (c * · + b)) (c * dt) (w.rescale c b) =
      (integrateTimesControlled A st record q x l dt w).image id (Log.rescale c b) := by
  intro A A' st st'
  have hA := scaleTimeRel (b := b) hc eps
  have hst := scale_ctrl_sim (b := b) hc f
  have ho := scale_obs_sim (Q := Q) (S := S) (K := K) (c := c) (b := b)
  have hJ : ScaleJ c b q q w (w.rescale c b) := ⟨rfl, rfl⟩
  have hd : ScaleD c dt (c * dt) := rfl
  have hl : List.Forall₂ (ScaleT c b) l (l.map (c * · + b)) := by
    rw [List.forall₂_map_right_iff]; exact List.forall₂_same.mpr fun _ _ => rfl
  have hE : ∀ (q q' : Q) w w', ScaleJ c b q q' w w' → (scaleCtx S c b).RE w w' := fun _ _ _ _ h => h.2
  have hcp : ∀ (a a' : Q) (w w' : Log S K), ScaleJ c b a a' w w' → ScaleJ c b q q w w' := fun _ _ _ _ h => ⟨rfl, h.2⟩
  refine ⟨scale_image_eq ?_ (integrateNStepsControlled_sim hA hE hst ho n hcp hJ rfl rfl hd),
    scale_image_eq ?_ (integrateConstControlled_sim hA hE hst ho hcp hJ rfl rfl rfl hd),
    scale_image_eq ?_ (integrateAdaptiveControlled_sim hA hE hst ho hJ rfl rfl rfl hd),
    scale_image_eq ?_ (integrateTimesControlled_sim hA hE hst ho hl hJ rfl hd)⟩
  · rintro ⟨_, _⟩ ⟨_, _⟩ p p' ⟨⟨_, _, _, h⟩, h1, h2⟩; exact ⟨Prod.ext h1.symm h2, h⟩
  · rintro ⟨_, _⟩ ⟨_, _⟩ p p' ⟨⟨_, _, _, h⟩, h1, h2⟩; exact ⟨Prod.ext h1.symm h2.symm, h⟩
  · rintro ⟨_, _, _, _⟩ ⟨_, _, _, _⟩ p p' ⟨⟨_, _, _, h⟩, h1, h2, h3, h4⟩
    simp only [ScaleT, ScaleD] at h1 h2 h3 h4
    subst h1; subst h2; subst h3; subst h4
    exact ⟨rfl, h⟩
  · rintro ⟨_, _⟩ ⟨_, _⟩ p p' ⟨⟨_, _, _, h⟩, h1, h2⟩; exact ⟨Prod.ext h1.symm h2.symm, h⟩

/-- **C74** (dense output steppers), for arbitrary steppers. -/
theorem rescale_dense {c b : K} (hc : 0 < c) (eps : K) (p : PureDense Q S K) (q : Q) (x : S) (t0 t1 dt : K) (n : ℕ) (l : List K) (w : Log S K) :
    let A := TimeArith.exact K eps
    let A' := TimeArith.exact K (c * eps)
    let st := loggedDense p
    let st' := loggedDense (p.rescale c b)
    integrateNStepsDense A' st' record q x (c * t0 + b) (c * dt) n (w.rescale c b) =
      (integrateNStepsDense A st record q x t0 dt n w).image (fun r => (r.1, c * r.2 + b)) (Log.rescale c b) ∧
    integrateConstDense A' st' record q x (c * t0 + b) (c * t1 + b) (c * dt) (w.rescale c b) =
      (integrateConstDense A st record q x t0 t1 dt w).image id (Log.rescale c b) ∧
    integrateAdaptiveDense A' st' record q x (c * t0 + b) (c * t1 + b) (c * dt) (w.rescale c b) =
      (integrateAdaptiveDense A st record q x t0 t1 dt w).image id (Log.rescale c b) ∧
    integrateTimesDense A' st' record q x (l.map (c * · + b)) (c * dt) (w.rescale c b) =
      (integrateTimesDense A st record q x l dt w).image id (Log.rescale c b) := by
  intro A A' st st'
  have hA := scaleTimeRel (b := b) hc eps
  have hst := scale_dense_sim (b := b) hc p
  have ho := scale_obs_sim (Q := Q) (S := S) (K := K) (c := c) (b := b)
  have hd : ScaleD c dt (c * dt) := rfl
  have h0 := scale_dense_init hc p (b := b) (q := q) (x := x) (t := t0) (d := dt) (w := w) (w' := w.rescale c b) rfl
  have hsub : ∀ {a a' e e'}, ScaleT c b a a' → ScaleT c b e e' → ScaleD c (A.sub e a) (A'.sub e' a') := by
    rintro a _ e _ rfl rfl
    simp only [ScaleD, A, A', TimeArith.exact]
    ring
  refine ⟨?_, ?_, ?_, ?_⟩
  · refine scale_image_eq ?_ (integrateNStepsDense_sim hA ?_ hsub hst ho n h0 rfl rfl hd)
    · rintro ⟨_, _⟩ ⟨_, _⟩ p p' ⟨⟨_, _, _, h⟩, h1, h2⟩; exact ⟨Prod.ext h1.symm h2, h⟩
    · rintro a _ e _ rfl rfl
      simp only [TimeArith.exact, add_lt_add_iff_right, mul_lt_mul_iff_right₀ hc]
  · refine scale_image_eq ?_ (integrateConstDense_sim hA hst ho h0 rfl rfl rfl hd)
    rintro ⟨_, _⟩ ⟨_, _⟩ p p' ⟨⟨_, _, _, h⟩, h1, h2⟩; exact ⟨Prod.ext h1.symm h2.symm, h⟩
  · refine scale_image_eq ?_ (integrateAdaptiveDense_sim (A := A) (A' := A') (e := t1) (e' := c * t1 + b)
      (JR := ScaleJ c b) (JR2 := ScaleJ c b) (RS := Eq) ?_ (fun _ _ _ _ h _ => h) ?_ (fun q q' w w' h _ => hst.step h) ?_ ?_ ?_ ?_ hst.mono_init hst.mono_step
      (fun _ _ => plainCtx_mono _ _) h0)
    · rintro ⟨_, _⟩ ⟨_, _⟩ p p' ⟨⟨_, _, _, h⟩, h1, h2⟩; exact ⟨Prod.ext h1.symm h2.symm, h⟩
    · rintro q _ w w' ⟨rfl, hw⟩
      exact hA.less rfl rfl rfl
    · rintro q _ w w' ⟨rfl, hw⟩
      exact hA.lessEq (hA.add rfl rfl) rfl rfl
    · rintro q _ w w' ⟨rfl, hw⟩ _
      exact hst.init ⟨rfl, hw⟩ rfl rfl (hsub rfl rfl)
    · rintro q _ w w' ⟨rfl, hw⟩
      exact ho.call ⟨rfl, hw⟩ rfl rfl
    · rintro q _ w w' ⟨rfl, hw⟩
      exact ho.call ⟨rfl, hw⟩ rfl rfl
    · rintro q _ w w' ⟨rfl, hw⟩; rfl
  · cases l with
    | nil => rfl
    | cons s0 l =>
      rw [List.map_cons]
      refine scale_image_eq ?_ (integrateTimesDense_sim (A := A) (A' := A') (st := st) (st' := st') (JR := ScaleJ c b) (RS := Eq) (RT := ScaleT c b)
        ?_ ?_ (fun q q' w w' h => hst.step h) ?_ ?_ ho (fun _ _ _ _ => plainCtx_mono _ _) (fun _ => plainCtx_mono _ _)
        (fun _ _ => plainCtx_mono _ _) rfl rfl ?_ (hst.init ⟨rfl, rfl⟩ rfl rfl rfl))
      · rintro ⟨_, _⟩ ⟨_, _⟩ p p' ⟨⟨_, _, _, h⟩, h1, h2⟩; exact ⟨Prod.ext h1.symm h2.symm, h⟩
      · rintro q _ w w' τ _ ⟨rfl, hw⟩ rfl _
        exact hA.lessEq rfl rfl rfl
      · rintro q _ w w' ⟨rfl, hw⟩
        rw [getLastD_scale]
        exact hA.lessEq (hA.add rfl rfl) rfl rfl
      · rintro q _ w w' τ _ ⟨rfl, hw⟩ rfl
        exact hst.calc_state ⟨rfl, hw⟩ rfl
      · rintro q _ w w' τ l' ⟨rfl, hw⟩ _ _
        rw [getLastD_scale]
        exact hst.init ⟨rfl, hw⟩ rfl rfl (hsub rfl rfl)
      · rw [List.forall₂_map_right_iff]; exact List.forall₂_same.mpr fun _ _ => rfl

end Verif
