import Verif.EH.Sum

/-! # Exceptions in flight, as the stacks show them (proofs) -/

namespace Verif.EH
open Verif.Fiber

/-- an exception is leaving the function activation -/
def fl : Mode → Nat
  | .unwinding _ => 1
  | _ => 0

theorem inflight_user {k : UKind} {ls : List Var} {m : Mode} {fs : List Frame} : inflight (.user k ls m :: fs) = fl m + inflight fs := by
  cases m <;> simp [inflight, fl]

@[simp] theorem fl_normal : fl .normal = 0 := rfl

def netP : Prim → Int
  | .throw => 1
  | .beginCatch _ => -1
  | .endCatch => 0

def net (d : CtxId) : List (CtxId × Prim) → Int
  | [] => 0
  | p :: ps => (if p.1 = d then netP p.2 else 0) + net d ps

theorem app_uncaught (p : Prim) (g : Glob) : (p.app g).uncaught = g.uncaught + netP p := by
  cases p <;> simp [Prim.app, netP] <;> omega

theorem own_uncaught (ps : List (CtxId × Prim)) (o : CtxId → Glob) (d : CtxId) :
    (ps.foldl (fun o p => upd o p.1 (p.2.app (o p.1))) o d).uncaught = (o d).uncaught + net d ps := by
  induction ps generalizing o with
  | nil => simp [net]
  | cons p ps ih =>
    rw [List.foldl_cons, ih]
    simp only [net, upd_apply]
    by_cases h : d = p.1
    · subst h; simp only [if_true, app_uncaught]; omega
    · rw [if_neg h, if_neg (Ne.symm h)]; omega

/-- the stack of `d` changes by `n` exceptions -/
def Fl (s s' : State) (d : CtxId) (n : Int) : Prop := (inflight (s'.frames d) : Int) = inflight (s.frames d) + n

theorem fl_dlv {s s' : State} {c : CtxId} {v : Option Fctx} (hd : Dlv s c v s') (d : CtxId) : Fl s s' d 0 := by
  unfold Fl
  cases hd with
  | entry hf => simp only [upd_apply]; split
                · next e => subst e; simp [hf, inflight, inflight_user, fl]
                · simp
  | resume hf => simp only [upd_apply]; split
                 · next e => subst e; simp [hf, inflight, inflight_user]
                 · simp
  | dtor hf => simp only [upd_apply]; split
               · next e => subst e; simp [hf, inflight, inflight_user, fl]
               · simp

theorem fl_destroy {s s1 s' : State} {t : Tid} {c : CtxId} {f : Fctx} {op : Op} (hi : Inv s) (hc : s.cur t = some c) (h1 : PreDst s t c f op s1) (h2 : Dst s1 t c f s') (d : CtxId) :
    Fl s s' d (net d (destroyPrims s (some f))) := by
  obtain ⟨_, _, _, hval⟩ := facts hi hc
  have key : (∀ d, inflight (s1.frames d) = inflight (s.frames d)) ∧ s1.frames f.ctx = s.frames f.ctx ∧ WF (s.frames f.ctx) ∧ f.ctx ≠ c := by
    cases h1 with
    | moveAssign hf ha hb hn hv => exact ⟨fun _ => rfl, rfl, (hval _ _ hv).2⟩
    | dropLoc hf hx hv =>
      refine ⟨fun d => ?_, by simp [(hval _ _ hv).2.2], (hval _ _ hv).2⟩
      simp only [upd_apply]; split
      · next e => subst e; simp [hf, inflight, inflight_user, fl]
      · rfl
    | dropHeap hf hx hv => exact ⟨fun _ => rfl, rfl, (hval _ _ hv).2⟩
    | tick hf hm hv =>
      refine ⟨fun d => ?_, by simp [(hval _ _ hv).2.2], (hval _ _ hv).2⟩
      simp only [upd_apply]; split
      · next e => subst e; simp [hf, inflight, inflight_user]
      · rfl
    | exit hf hcap hv => exact ⟨fun _ => rfl, rfl, (hval _ _ hv).2⟩
  obtain ⟨k1, k4, k5, k7⟩ := key
  obtain ⟨h2⟩ := h2
  unfold Fl
  rw [← k1 d]
  cases h2 with
  | @entry rest hf =>
    have hf' : s.frames f.ctx = .entryJump :: rest := by rw [← k4]; simpa [sw, State.setFrames, k7] using hf
    simp only [destroyPrims, hf']
    have hr : rest = [] := by
      rw [hf'] at k5; have := k5.1
      cases rest <;> simp_all [Adj]
    subst hr
    have hn : net d [(f.ctx, .throw), (f.ctx, .beginCatch (.forced s.nextVar)), (f.ctx, .endCatch)] = 0 := by
      simp only [net, netP]; split <;> simp
    rw [hn]
    simp only [fin, sw, State.setFrames, upd_apply]
    by_cases e1 : d = c
    · subst e1; simp [inflight, inflight_user, fl, Ne.symm k7]
    · by_cases e2 : d = f.ctx
      · subst e2; simp [e1, inflight, inflight_user, fl, k4, hf']
      · simp [e1, e2]
  | @resume k ls m rest hf =>
    have hf' : s.frames f.ctx = .resume :: .user k ls m :: rest := by rw [← k4]; simpa [sw, State.setFrames, k7] using hf
    have hm : m = .normal := by rw [hf'] at k5; exact wf_resume k5
    subst hm
    simp only [destroyPrims, hf', net, netP]
    simp only [sw, State.setFrames, upd_apply]
    by_cases e1 : d = c
    · subst e1; simp [inflight, inflight_user, fl, Ne.symm k7, k7]
    · by_cases e2 : d = f.ctx
      · subst e2; simp [inflight, inflight_user, fl, k4, hf']; omega
      · simp [e1, e2, Ne.symm e2]

theorem step_fl {s s' : State} {t : Tid} {op : Op} (hi : Inv s) (ho : op ≠ .swallow) (hs : step s t op = .ok s') (d : CtxId) : Fl s s' d (net d (prims s t op)) := by
  obtain ⟨c, hc, he⟩ := step_eff hi hs
  obtain ⟨_, hwf, hab, hval⟩ := facts hi hc
  clear hs
  have same : ∀ {s'' : State} {fs : List Frame} {n : Int}, s''.frames = upd s.frames c fs → (inflight fs : Int) = inflight (s.frames c) + n → ∀ {ps}, (∀ d, net d ps = if c = d then n else 0) →
      Fl s s'' d (net d ps) := by
    intro s'' fs n h1 h2 ps h3
    unfold Fl
    rw [h1, h3, upd_apply]
    by_cases e : d = c
    · subst e; simpa using h2
    · simp [e, Ne.symm e]
  have z : ∀ d, net d [] = if c = d then 0 else 0 := by intro d; simp [net]
  have one : ∀ d, net d [(c, .throw)] = if c = d then 1 else 0 := by intro d; simp [net, netP]
  have ctch : ∀ e d, net d [(c, .beginCatch e)] = if c = d then -1 else 0 := by intro e d; simp [net, netP]
  have ctch2 : ∀ e d, net d [(c, .beginCatch e), (c, .endCatch)] = if c = d then -1 else 0 := by intro e d; simp [net, netP]
  have stay : ∀ {s'' : State}, s''.frames = s.frames → Fl s s'' d 0 := by intro s'' h; unfold Fl; rw [h]; simp
  cases he with
  | newHeap hf => simp only [prims, hc, hf]; exact stay rfl
  | newLocal hf => simp only [prims, hc, hf]; exact same rfl (by simp [hf, inflight, inflight_user]) z
  | moveHeap hf ha => simp only [prims, hc, hf]; exact stay rfl
  | moveLocal hf ha => simp only [prims, hc, hf]; exact same rfl (by simp [hf, inflight, inflight_user]) z
  | moveSelf hf ha => simp only [prims, hc, hf, if_true]; exact stay rfl
  | moveAssign hf ha hb hn hv => simp only [prims, hc, hf, hv, hn, if_false]; exact stay rfl
  | swap hf ha hb => simp only [prims, hc, hf]; exact stay rfl
  | dropLoc hf hx hv => simp only [prims, hc, hf, hv]; exact same rfl (by simp [hf, inflight, inflight_user]) z
  | dropHeap hf hx hv => simp only [prims, hc, hf, hv]; exact stay rfl
  | @create k ls rest xs hf ha s2 h2 =>
    simp only [prims, hc, hf]
    have hsame := capture_same ({ s with nextCtx := s.nextCtx + 1 }.addLog (.alloc s.nextCtx)) s.nextCtx xs
    rw [← h2] at hsame
    have h4 : s2.frames = s.frames := hsame.2.2.2.1
    unfold Fl
    simp only [upd_apply, h4, net]
    by_cases e1 : d = c
    · subst e1; simp [hf, inflight, inflight_user]
    · by_cases e2 : d = s.nextCtx
      · subst e2; simp [e1, inflight, inflight_user, hi.ci.fAbsent _ hab]
      · simp [e1, e2]
  | createThrows hf ha => simp only [prims, hc, hf]; exact same rfl (by simp [hf, inflight, inflight_user, fl]; omega) one
  | @resume k ls rest x f s' hf ha hv hd =>
    simp only [prims, hc, hf]
    have h1 := fl_dlv hd d
    unfold Fl at h1 ⊢
    rw [h1]
    simp only [sw, State.setFrames, State.setVal, upd_apply, net]
    split
    · next e => subst e; simp [inflight, inflight_user]
    · simp
  | @resumeWith k ls rest x f hf ha hv =>
    simp only [prims, hc, hf]
    unfold Fl
    simp only [upd_apply, net]
    by_cases e1 : d = c
    · subst e1; simp [(hval _ _ hv).2.2.symm, inflight, inflight_user, hf]
    · by_cases e2 : d = f.ctx
      · subst e2; simp [inflight, inflight_user, fl, (hval _ _ hv).2.2]
      · simp [e1, e2]
  | withThrowsHere hf ha hv => simp only [prims, hc, hf]; exact same rfl (by simp [hf, inflight, inflight_user, fl]; omega) one
  | @withThrows k ls rest x n f k' ls' m' rest' hf ha hv hf' =>
    obtain ⟨v1, v2, v3⟩ := hval _ _ hv
    simp only [prims, hc, hf, hv]
    have hf2 : s.frames f.ctx = .resume :: .user k' ls' m' :: rest' := by simpa [v3] using hf'
    have hm : m' = .normal := by rw [hf2] at v2; exact wf_resume v2
    subst hm
    unfold Fl
    simp only [upd_apply, net, netP]
    by_cases e1 : d = c
    · subst e1; simp [v3.symm, v3, inflight, inflight_user, hf]
    · by_cases e2 : d = f.ctx
      · subst e2; simp [inflight, inflight_user, fl, hf2]; omega
      · simp [e1, e2, Ne.symm e2]
  | call hf => simp only [prims, hc, hf]; exact same rfl (by simp [hf, inflight, inflight_user, fl]) z
  | @cleanup fr rest hf hr =>
    have hp : prims s t .cleanup = [] := by
      simp only [prims, hc, hf]
      cases fr with
      | user k ls m => cases m <;> cases ls <;> simp
      | _ => simp
    rw [hp]
    exact same rfl (by simp [hf, inflight, inflight_user, fl]) z
  | ret hf hk => simp only [prims, hc, hf]; exact same rfl (by simp [hf, inflight, inflight_user, fl]) z
  | retHandle hf ha hk => simp only [prims, hc, hf]; exact same rfl (by simp [hf, inflight, inflight_user, fl]) z
  | throw hf => simp only [prims, hc, hf]; exact same rfl (by simp [hf, inflight, inflight_user, fl]; omega) one
  | spawn hf =>
    simp only [prims, hc, hf]
    unfold Fl
    simp only [upd_apply, net]
    split
    · next e => subst e; simp [inflight, inflight_user, fl, hi.ci.fAbsent _ hab]
    · simp
  | @destroy op s1 f s' h1 h2 =>
    have hp : prims s t op = destroyPrims s (some f) := by
      cases h1 with
      | moveAssign hf ha hb hn hv => simp [prims, hc, hf, hn, hv]
      | dropLoc hf hx hv => simp [prims, hc, hf, hv]
      | dropHeap hf hx hv => simp [prims, hc, hf, hv]
      | @tick k ls m rest x hf hm hv => cases m <;> simp_all [prims]
      | exit hf hcap hv => simp [prims, hc, hf, hcap, hv]
    rw [hp]; exact fl_destroy hi hc h1 h2 d
  | @tickLocal k ls m rest x hf hm hv =>
    have hp : prims s t .tick = [] := by cases m <;> simp_all [prims, destroyPrims]
    rw [hp]
    exact same rfl (by simp [hf, inflight, inflight_user]) z
  | exitCap hf hcap hv => simp only [prims, hc, hf, hcap, hv]; exact stay rfl
  | catchUser hf => simp only [prims, hc, hf]; exact same rfl (by simp [hf, inflight, inflight_user, fl]; omega) (ctch _)
  | swallow => exact absurd rfl ho
  | propCall hf =>
    simp only [prims, hc, hf]
    have hm := by rw [hf] at hwf; exact wf_callTop hwf
    subst hm
    exact same rfl (by simp [hf, inflight, inflight_user, fl]) z
  | @propFn x f rest hf hv =>
    obtain ⟨v1, v2, v3⟩ := hval _ _ hv
    simp only [prims, hc, hf]
    have hr : rest = [.entryRun] := by rw [hf] at hwf; exact hwf.1.2
    subst hr
    unfold Fl
    rw [ctch2]
    simp only [fin, State.kill, upd_apply]
    by_cases e1 : d = c
    · subst e1; simp [v3.symm, inflight, hf, fl]
    · by_cases e2 : d = f.ctx
      · subst e2; simp [inflight, e1, Ne.symm e1]
      · simp [e1, e2, Ne.symm e1]
  | @propOntopUser i n k ls m rest hf =>
    simp only [prims, hc, hf]
    have hm : m = .normal := by rw [hf] at hwf; exact wf_resume hwf.2
    subst hm
    exact same rfl (by simp [hf, inflight, inflight_user, fl]) z
  | @propOntopForced i x f rest s' hf hv hr =>
    obtain ⟨v1, v2, v3⟩ := hval _ _ hv
    cases hr with
    | @entry rest' hf' =>
      have hf' : rest = .entryJump :: rest' := by simpa [State.setFrames, State.kill] using hf'
      subst hf'
      simp only [prims, hc, hf]
      have hr : rest' = [] := by
        rw [hf] at hwf
        have := hwf.2.1
        cases rest' <;> simp_all [Adj]
      subst hr
      unfold Fl
      rw [ctch2]
      simp only [fin, State.kill, State.setFrames, upd_apply]
      by_cases e1 : d = c
      · subst e1; simp [v3.symm, inflight, hf, fl]
      · by_cases e2 : d = f.ctx
        · subst e2; simp [inflight, e1, Ne.symm e1]
        · simp [e1, e2, Ne.symm e1]
    | @resume k ls m rest' hf' =>
      have hf' : rest = .resume :: .user k ls m :: rest' := by simpa [State.setFrames, State.kill] using hf'
      subst hf'
      simp only [prims, hc, hf]
      have hm : m = .normal := by rw [hf] at hwf; exact wf_resume hwf.2
      subst hm
      unfold Fl
      simp only [State.kill, State.setFrames, upd_apply, net]
      split
      · next e => subst e; simp [hf, inflight, inflight_user, fl]
      · simp
  | leaveMain hf =>
    simp only [prims, hc, hf]
    have hr := by rw [hf] at hwf; exact hwf.1.2
    subst hr
    exact same rfl (by simp [hf, inflight, inflight_user, fl]) z
  | leaveCall hf hk => simp only [prims, hc, hf]; exact same rfl (by simp [hf, inflight, inflight_user, fl]) z
  | @leaveFn x f rest hf hv =>
    obtain ⟨v1, v2, v3⟩ := hval _ _ hv
    simp only [prims, hc, hf]
    have hr : rest = [.entryRun] := by rw [hf] at hwf; exact hwf.1.2
    subst hr
    unfold Fl
    simp only [fin, State.kill, upd_apply, net]
    by_cases e1 : d = c
    · subst e1; simp [v3.symm, inflight, hf, fl]
    · by_cases e2 : d = f.ctx
      · subst e2; simp [inflight, e1]
      · simp [e1, e2]
  | @leaveOntop i x rest s' hf hd =>
    simp only [prims, hc, hf]
    have h1 := fl_dlv hd d
    unfold Fl at h1 ⊢
    rw [h1]
    simp only [State.kill, State.setFrames, upd_apply, net]
    split
    · next e => subst e; simp [hf, inflight, inflight_user, fl]
    · simp
  | @exitDone n rest s' hf hcap hst hd =>
    simp only [prims, hc, hf, hcap]
    have h1 := fl_dlv hd d
    unfold Fl at h1 ⊢
    rw [h1]
    simp only [upd_apply, net]
    by_cases e1 : d = c
    · subst e1; simp [hf, inflight, inflight_user]
    · by_cases e2 : d = n
      · subst e2; simp [e1, inflight, inflight_user, hi.ci.fTerm _ hst]
      · simp [e1, e2]

end Verif.EH
