import Verif.Model.Iterator
import Verif.Lemmas.Sim

/-! # A loop `while( c ) { f; g } f` and its rotation `while( !stop ) { f; if( c ) g else stop }` -/

namespace Verif
namespace SimCtx
variable {W W' σ I : Type} {C : SimCtx W W'}

theorem Rel.rotate {c : σ → Bool} {f : σ → M W Unit} {g : σ → M W σ} {stop : I → Bool}
    {body : I → M W' I} (R RF : σ → I → W → W' → Prop)
    (hs : ∀ s i w w', R s i w w' → stop i = false)
    (hstep : ∀ s i w w', R s i w w' → c s = true →
      C.Rel R ((f s >>= fun _ => g s) w) (body i w'))
    (hlast : ∀ s i w w', R s i w w' → c s = false →
      C.Rel (fun _ i' w w' => stop i' = true ∧ RF s i' w w') (f s w) (body i w'))
    (hmono : ∀ i, C.Mono (body i))
    {s : σ} {i : I} {w : W} {w' : W'} (h0 : R s i w w') :
    C.Rel RF ((Verif.whileM c (fun s => f s >>= fun _ => g s) s >>= fun s => f s >>= fun _ => Pure.pure s) w)
      (Verif.whileM (fun i => !stop i) body i w') := by
  have key : ∀ n s i w w', R s i w w' → ∀ r, Verif.whileF c (fun s => f s >>= fun _ => g s) n s w = some r →
      C.Rel RF (match r with
        | .ok s w => (f s >>= fun _ => Pure.pure s) w
        | .err e w => .err e w
        | .ub => .ub
        | .div => .div) (Verif.whileM (fun i => !stop i) body i w') := by
    intro n
    induction n with
    | zero => intro s i w w' _ r h; simp [Verif.whileF] at h
    | succ n ih =>
      intro s i w w' hR r h
      have hns : (fun i => !stop i) i = true := by simp [hs _ _ _ _ hR]
      rw [whileM_true (cond := fun i => !stop i) hns]
      simp only [Verif.whileF] at h
      split at h
      · rename_i hc
        have hst := hstep _ _ _ _ hR hc
        generalize hb : (f s >>= fun _ => g s) w = rb at hst h
        generalize hb' : body i w' = rb' at hst
        cases hst with
        | ok h1 => rw [M.bind_ok hb']; exact ih _ _ _ _ h1 _ h
        | err h1 => cases h; rw [M.bind_err hb']; exact .err h1
        | esc h1 h2 =>
          cases h
          refine .esc h1 ?_
          exact Ext.bind (hb' ▸ h2) (fun a => Mono.whileM hmono a)
        | ub => cases h; rw [M.bind_ub hb']; exact .ub
        | div => cases h; rw [M.bind_div hb']; exact .div
      · rename_i hc
        cases h
        have hst := hlast _ _ _ _ hR (by simpa using hc)
        simp only
        generalize hb : f s w = rb at hst
        generalize hb' : body i w' = rb' at hst
        cases hst with
        | ok h1 =>
          rw [M.bind_ok hb, M.bind_ok hb']
          rw [whileM_stop (cond := fun i => !stop i) (by simp [h1.1])]
          exact .ok h1.2
        | err h1 => rw [M.bind_err hb, M.bind_err hb']; exact .err h1
        | esc h1 h2 =>
          rw [M.bind_err hb]
          exact .esc h1 (Ext.bind (hb' ▸ h2) (fun a => Mono.whileM hmono a))
        | ub => rw [M.bind_ub hb, M.bind_ub hb']; exact .ub
        | div => rw [M.bind_div hb, M.bind_div hb']; exact .div
  have none : ∀ n s i w w', R s i w w' →
      (∀ m, Verif.whileF c (fun s => f s >>= fun _ => g s) m s w = none) →
      Verif.whileF (fun i => !stop i) body n i w' = none := by
    intro n
    induction n with
    | zero => intros; rfl
    | succ n ih =>
      intro s i w w' hR hn
      have hns : (!stop i) = true := by simp [hs _ _ _ _ hR]
      simp only [Verif.whileF, if_pos hns]
      have hc : c s = true := by
        have := hn 1
        by_contra hc
        simp [Verif.whileF, hc] at this
      have hst := hstep _ _ _ _ hR hc
      have hn' : ∀ m, (match (f s >>= fun _ => g s) w with
        | .ok s' w' => Verif.whileF c (fun s => f s >>= fun _ => g s) m s' w'
        | .err e w' => some (.err e w')
        | .ub => some .ub
        | .div => some .div) = Option.none := by
        intro m; have := hn (m + 1); simp only [Verif.whileF, if_pos hc] at this; exact this
      generalize hb : (f s >>= fun _ => g s) w = rb at hst hn'
      generalize hb' : body i w' = rb' at hst
      cases hst with
      | ok h1 => exact ih _ _ _ _ h1 hn'
      | err h1 => exact absurd (hn' 0) (by simp)
      | esc h1 h2 => exact absurd (hn' 0) (by simp)
      | ub => exact absurd (hn' 0) (by simp)
      | div => exact absurd (hn' 0) (by simp)
  rcases whileM_div_or (cond := c) (body := fun s => f s >>= fun _ => g s) s w with ⟨n, hn⟩ | ⟨hn, hd⟩
  · have := key n s i w w' h0 _ hn
    rw [M.bind_apply]
    exact this
  · rw [M.bind_div hd]
    rcases whileM_div_or (cond := fun i => !stop i) (body := body) i w' with ⟨n, hn'⟩ | ⟨_, hd'⟩
    · rw [none n _ _ _ _ h0 hn] at hn'; simp at hn'
    · rw [hd']; exact .div

end SimCtx
end Verif
