import Verif.EH.USum
import Verif.EH.Inv

/-! # ucontext: exceptions in flight, as the stacks show them (proofs) -/

namespace Verif.EH.U
open Verif.UFiber Verif.UFiber.State
open Verif.Fiber (CtxId Var Tid Kind Exc Mode UKind Frame Status Op CreateOutcome upd upd_apply lvars evars rvars DtorTop Frame.lvars Frame.evars Frame.rvars RunTop SuspTop ModeOK dtorTop_iff)

/-- the stack of `d` changes by `n` exceptions -/
def Fl (s s' : State) (d : CtxId) (n : Int) : Prop := (inflight (s'.frames d) : Int) = inflight (s.frames d) + n

theorem wf_resume {k : UKind} {ls : List Var} {m : Mode} {rest : List Frame} (h : WF (.resume :: .user k ls m :: rest)) : m = .normal := by
  have := h.1; cases m <;> simp_all [Adj]

theorem wf_callTop {ls ls' : List Var} {m m' : Mode} {k' : UKind} {rest : List Frame} (h : WF (.user .call ls m :: .user k' ls' m' :: rest)) : m' = .normal := by
  have := h.1; cases m' <;> simp_all [Adj]

theorem fl_arr {s s' : State} {w : CtxId} (hd : Arr s w s') (hw : WF (s.frames w)) (d : CtxId) : Fl s s' d (net d (arrPrims s w)) := by
  unfold Fl
  cases hd with
  | entry hf =>
    simp only [arrPrims, hf, net, upd_apply]; split
    · next e => subst e; simp [hf, inflight, inflight_user]
    · simp
  | unwind hf hu =>
    have hm := by rw [hf] at hw; exact wf_resume hw
    subst hm
    simp only [arrPrims, hf, hu, net, netP, upd_apply]; split
    · next e => subst e; simp [hf, inflight, inflight_user, fl, net, netP]; omega
    · next e => simp [net, Ne.symm e]
  | ontop hf hu ho =>
    simp only [arrPrims, hf, hu, net, upd_apply]; split
    · next e => subst e; simp [hf, inflight, inflight_user, net]
    · simp [net]
  | ret hf hu ho =>
    simp only [arrPrims, hf, hu, net, upd_apply]; split
    · next e => subst e; simp [hf, inflight, inflight_user, net]
    · simp [net]
  | dtor hf hs ht =>
    simp only [arrPrims, hf, net, upd_apply]; split
    · next e => subst e; simp [hf, inflight]
    · simp

theorem fl_arr' {s s1 s' : State} {w : CtxId} (hd : Arr s1 w s') (hw : WF (s.frames w)) (hf : s1.frames w = s.frames w) (hu : s1.unw w = s.unw w) (d : CtxId) : Fl s1 s' d (net d (arrPrims s w)) := by
  rw [← arrPrims_eq hf hu]; exact fl_arr hd (hf ▸ hw) d

theorem fl_destroy {s s1 s' : State} {t : Tid} {c v : CtxId} {op : Op} (hi : Inv s) (hc : s.cur t = some c) (h1 : PreDst s c v op s1) (h2 : Dst s1 t c v s') (d : CtxId) :
    Fl s s' d (net d (destroyPrims s (some v))) := by
  have hval : ∃ x, s.val x = some v := by cases h1 <;> exact ⟨_, by assumption⟩
  obtain ⟨x0, hx0⟩ := hval
  have hrun := (hi.ci.curRun t c).1 hc
  have k7 : v ≠ c := by
    rintro rfl
    rcases (hi.vi.valid _ _ hx0).1 with h | h <;> rw [hrun] at h <;> cases h
  have key : (∀ d, inflight (s1.frames d) = inflight (s.frames d)) ∧ s1.frames v = s.frames v ∧ s1.root = s.root ∧ s1.term = s.term ∧ s1.status = s.status := by
    cases h1 with
    | moveAssign hf ha hb hn hv => exact ⟨fun _ => rfl, rfl, rfl, rfl, rfl⟩
    | dropLoc hf hx hv =>
      refine ⟨fun d => ?_, by simp [k7], rfl, rfl, rfl⟩
      simp only [upd_apply]; split
      · next e => subst e; simp [hf, inflight_user]
      · rfl
    | dropHeap hf hx hv => exact ⟨fun _ => rfl, rfl, rfl, rfl, rfl⟩
    | tick hf hm hv =>
      refine ⟨fun d => ?_, by simp [k7], rfl, rfl, rfl⟩
      simp only [upd_apply]; split
      · next e => subst e; simp [hf, inflight_user]
      · rfl
    | exit hf hcap hv => exact ⟨fun _ => rfl, rfl, rfl, rfl, rfl⟩
  obtain ⟨k1, k4, k6, k8, k9⟩ := key
  unfold Fl
  rw [← k1 d]
  cases h2 with
  | root hr => simp [destroyPrims, ← k6, hr, net]
  | term hr ht hs =>
    simp only [destroyPrims, ← k8, ht, Bool.or_true, if_true, net, State.setFrames, upd_apply]
    split
    · next e => subst e; simp [inflight]
    · simp
  | unwind hr ht hs ha =>
    rw [k6] at hr; rw [k8] at ht; rw [k9] at hs
    have hw := hi.ci.wf v (by rw [hs]; simp)
    rw [← k4] at hw
    have h3 := fl_arr ha (by simpa [sw, k7] using hw) d
    unfold Fl at h3
    rw [h3]
    have e1 : inflight ((sw { s1 with unw := upd s1.unw v true, early := s1.early || decide (s1.frames v = [Frame.entryJump]), frames := upd s1.frames c (.dtor v :: s1.frames c) } t c v .suspended).frames d) =
        inflight (s1.frames d) := by
      simp only [sw, upd_apply]; split
      · next e => subst e; simp [inflight]
      · rfl
    rw [e1]
    congr 1
    have e2 : arrPrims (sw { s1 with unw := upd s1.unw v true, early := s1.early || decide (s1.frames v = [Frame.entryJump]), frames := upd s1.frames c (.dtor v :: s1.frames c) } t c v .suspended) v =
        destroyPrims s (some v) := by
      simp only [arrPrims, destroyPrims, sw, upd_apply, k7, if_false, if_true, k4, hr, ht, Bool.or_self, Bool.false_eq_true]
    rw [e2]

theorem step_fl {s s' : State} {t : Tid} {op : Op} (hi : Inv s) (ho : op ≠ .swallow) (hs : step s t op = .ok s') (d : CtxId) : Fl s s' d (net d (prims s t op)) := by
  obtain ⟨c, hc, he⟩ := step_eff hs
  have hrun := (hi.ci.curRun t c).1 hc
  have hwf := hi.ci.wf c (by rw [hrun]; simp)
  have hab : s.status s.nextCtx = .absent := (hi.ci.absent _).2 (Nat.le_refl _)
  have ne : ∀ {w}, s.status w = .suspended → w ≠ c := by rintro w h rfl; rw [hrun] at h; cases h
  have wfs : ∀ {w}, s.status w = .suspended → WF (s.frames w) := fun h => hi.ci.wf _ (by rw [h]; simp)
  clear hs
  have same : ∀ {s'' : State} {fs : List Frame} {n : Int}, s''.frames = upd s.frames c fs → (inflight fs : Int) = inflight (s.frames c) + n → ∀ {ps}, (∀ d, net d ps = if c = d then n else 0) →
      Fl s s'' d (net d ps) := by
    intro s'' fs n h1 h2 ps h3
    unfold Fl
    rw [h1, h3, upd_apply]
    by_cases e : d = c
    · subst e; simpa using h2
    · simp [e, Ne.symm e]
  have z : ∀ d, net d [] = if c = d then 0 else 0 := by intro d; simp [net]
  have one : ∀ d, net d [(c, .throw)] = if c = d then 1 else 0 := by intro d; simp [net, netP]
  have ctch : ∀ e d, net d [(c, .beginCatch e)] = if c = d then -1 else 0 := by intro e d; simp [net, netP]
  have stay : ∀ {s'' : State}, s''.frames = s.frames → Fl s s'' d 0 := by intro s'' h; unfold Fl; rw [h]; simp
  cases he with
  | newHeap hf => simp only [prims, hc, hf]; exact stay rfl
  | newLocal hf => simp only [prims, hc, hf]; exact same rfl (by simp [hf, inflight_user]) z
  | moveHeap hf ha => simp only [prims, hc, hf]; exact stay rfl
  | moveLocal hf ha => simp only [prims, hc, hf]; exact same rfl (by simp [hf, inflight_user]) z
  | moveSelf hf ha => simp only [prims, hc, hf, if_true]; exact stay rfl
  | moveAssign hf ha hb hn hv => simp only [prims, hc, hf, hv, hn, if_false]; exact stay rfl
  | swap hf ha hb => simp only [prims, hc, hf]; exact stay rfl
  | dropLoc hf hx hv => simp only [prims, hc, hf, hv]; exact same rfl (by simp [hf, inflight_user]) z
  | dropHeap hf hx hv => simp only [prims, hc, hf, hv]; exact stay rfl
  | @create k ls rest xs hf ha s2 h2 =>
    simp only [prims, hc, hf]
    have hsame := capture_same ({ s with nextCtx := s.nextCtx + 1 }.addLog (.alloc s.nextCtx)) s.nextCtx xs
    rw [← h2] at hsame
    have h4 : s2.frames = s.frames := hsame.2.2.1
    unfold Fl
    simp only [upd_apply, h4, net]
    by_cases e1 : d = c
    · subst e1; simp [hf, inflight_user]
    · by_cases e2 : d = s.nextCtx
      · subst e2; simp [e1, inflight, hi.ci.fAbsent _ hab]
      · simp [e1, e2]
  | createThrows hf ha => simp only [prims, hc, hf]; exact same rfl (by simp [hf, inflight_user, fl]; omega) one
  | @resume k ls rest x w s' hf ha hv hsu hd =>
    simp only [prims, hc, hf, hv, toPrims]
    have hw := ne hsu
    have h1 := fl_arr' (s := s) hd (wfs hsu) (by simp [sw, State.setFrames, State.setVal, hw]) rfl d
    unfold Fl at h1 ⊢
    rw [h1]
    simp only [sw, State.setFrames, State.setVal, upd_apply]
    split
    · next e => subst e; simp [inflight]
    · rfl
  | @resumeWith k ls rest x w s' hf ha hv hsu hd =>
    simp only [prims, hc, hf, hv, toPrims]
    have hw := ne hsu
    have h1 := fl_arr' (s := s) hd (wfs hsu) (by simp [sw, hw]) rfl d
    unfold Fl at h1 ⊢
    rw [h1]
    simp only [sw, upd_apply]
    split
    · next e => subst e; simp [inflight]
    · rfl
  | call hf => simp only [prims, hc, hf]; exact same rfl (by simp [hf, inflight_user]) z
  | @cleanup fr rest hf hr =>
    have hp : prims s t .cleanup = [] := by
      simp only [prims, hc, hf]
      cases fr with
      | user k ls m => cases m <;> cases ls <;> simp
      | _ => simp
    rw [hp]
    exact same rfl (by simp [hf, inflight_user]) z
  | ret hf hk => simp only [prims, hc, hf]; exact same rfl (by simp [hf, inflight_user, fl]) z
  | retHandle hf ha hk => simp only [prims, hc, hf]; exact same rfl (by simp [hf, inflight_user, fl]) z
  | throw hf => simp only [prims, hc, hf]; exact same rfl (by simp [hf, inflight_user, fl]; omega) one
  | spawn hf =>
    simp only [prims, hc, hf]
    unfold Fl
    simp only [upd_apply, net]
    split
    · next e => subst e; simp [inflight, inflight_user, hi.ci.fAbsent _ hab]
    · simp
  | @destroy op s1 v s' h1 h2 =>
    have hp : prims s t op = destroyPrims s (some v) := by
      cases h1 with
      | moveAssign hf ha hb hn hv => simp [prims, hc, hf, hn, hv]
      | dropLoc hf hx hv => simp [prims, hc, hf, hv]
      | dropHeap hf hx hv => simp [prims, hc, hf, hv]
      | @tick k ls m rest x hf hm hv => cases m <;> simp_all [prims]
      | exit hf hcap hv => simp [prims, hc, hf, hcap, hv]
    rw [hp]; exact fl_destroy hi hc h1 h2 d
  | @tickLocal k ls m rest x hf hm hv =>
    have hp : prims s t .tick = [] := by cases m <;> simp_all [prims, destroyPrims]
    rw [hp]
    exact same rfl (by simp [hf, inflight_user]) z
  | exitCap hf hcap hv => simp only [prims, hc, hf, hcap, hv]; exact stay rfl
  | catchUser hf => simp only [prims, hc, hf]; exact same rfl (by simp [hf, inflight_user, fl]; omega) (ctch _)
  | swallow => exact absurd rfl ho
  | swallowNone => exact absurd rfl ho
  | propCall hf =>
    simp only [prims, hc, hf]
    have hm := by rw [hf] at hwf; exact wf_callTop hwf
    subst hm
    exact same rfl (by simp [hf, inflight_user, fl]) z
  | @propFn x rest s' hf hd =>
    obtain ⟨hp, hsu, ha⟩ := hd
    rename_i w
    simp only [prims, hc, hf, hp, toPrims]
    have hr : rest = [.entryRun] := by rw [hf] at hwf; exact hwf.1.2
    subst hr
    replace hsu : s.status w = .suspended := hsu
    have hw := ne hsu
    have h1 := fl_arr' (s := s) ha (wfs hsu) (by simp [sw, State.kill, hw]) (by simp [sw, State.kill, hw]) d
    unfold Fl at h1 ⊢
    rw [h1]
    simp only [sw, State.kill, upd_apply, List.cons_append, List.nil_append, net, netP]
    by_cases e1 : d = c
    · subst e1; simp [inflight, hf]; omega
    · simp [e1, Ne.symm e1]
  | @propOntop i e k ls m rest hf =>
    simp only [prims, hc, hf]
    have hm : m = .normal := by rw [hf] at hwf; exact wf_resume hwf.2
    subst hm
    exact same rfl (by simp [hf, inflight, inflight_user, fl]) z
  | leaveMain hf =>
    simp only [prims, hc, hf]
    have hr := by rw [hf] at hwf; exact hwf.1.2
    subst hr
    exact same rfl (by simp [hf, inflight]) z
  | leaveCall hf hk => simp only [prims, hc, hf]; rcases hk with rfl | rfl <;> exact same rfl (by simp [hf, inflight]) z
  | @leaveFn x rest s' hf hd =>
    obtain ⟨hp, hsu, ha⟩ := hd
    rename_i w
    simp only [prims, hc, hf, hp, toPrims]
    have hr : rest = [.entryRun] := by rw [hf] at hwf; exact hwf.1.2
    subst hr
    replace hsu : s.status w = .suspended := hsu
    have hw := ne hsu
    have h1 := fl_arr' (s := s) ha (wfs hsu) (by simp [sw, State.kill, hw]) (by simp [sw, State.kill, hw]) d
    unfold Fl at h1 ⊢
    rw [h1]
    simp only [sw, State.kill, upd_apply]
    by_cases e1 : d = c
    · subst e1; simp [inflight, hf]
    · simp [e1]
  | @leaveOntop i x k ls m rest hf =>
    simp only [prims, hc, hf]
    exact same rfl (by simp [hf, inflight, inflight_user, fl]) z
  | @exitDtor n v rest hf hcap hst =>
    simp only [prims, hc, hf, hcap]
    unfold Fl
    simp only [upd_apply, net]
    by_cases e1 : d = c
    · subst e1; simp [hf, inflight]
    · by_cases e2 : d = n
      · subst e2; simp [e1, inflight, hi.ci.fTerm _ hst]
      · simp [e1, e2]
  | @exitDone n rest hf hcap hst hn =>
    simp only [prims, hc, hf, hcap]
    unfold Fl
    simp only [upd_apply, net]
    by_cases e1 : d = c
    · subst e1; simp [hf, inflight]
    · by_cases e2 : d = n
      · subst e2; simp [e1, inflight, hi.ci.fTerm _ hst]
      · simp [e1, e2]

/-! ## a context whose `force_unwind` is set has an exception in flight -/

def me : Mode → List Var
  | .unwinding (.forced x) => [x]
  | _ => []

theorem ev_user {k : UKind} {ls : List Var} {m : Mode} {fs : List Frame} : evars (.user k ls m :: fs) = me m ++ evars fs := by
  cases m with
  | unwinding e => cases e <;> simp [evars, Frame.evars, me]
  | _ => simp [evars, Frame.evars, me]

@[simp] theorem me_normal : me .normal = [] := rfl
@[simp] theorem me_ret {o : Option Var} : me (.returning o) = [] := rfl
@[simp] theorem me_un {n : Nat} : me (.unwinding (.user n)) = [] := rfl
@[simp] theorem me_fo {x : Var} : me (.unwinding (.forced x)) = [x] := rfl

theorem ev_cons {v : CtxId} {fs : List Frame} : evars (.resume :: fs) = evars fs ∧ evars (.dtor v :: fs) = evars fs ∧ evars (.exiting v :: fs) = evars fs ∧ evars (.entryJump :: fs) = evars fs ∧
    evars (.exitJump :: fs) = evars fs ∧ evars ([] : List Frame) = [] := by simp [evars, Frame.evars]

def UInv (s : State) : Prop := ∀ d, s.unw d = true → evars (s.frames d) ≠ []

theorem uinv_arr {s s' : State} {w : CtxId} (hd : Arr s w s') (hw : WF (s.frames w)) (h : ∀ d, d ≠ w → s.unw d = true → evars (s.frames d) ≠ [])
    (h' : s.unw w = true → evars (s.frames w) ≠ [] ∨ ∃ rest, s.frames w = .resume :: rest) : UInv s' := by
  intro d hu
  by_cases e : d = w
  · subst e
    cases hd with
    | entry hf =>
      rcases h' hu with h' | ⟨r, h'⟩
      · rw [hf] at h' hw
        have := hw.1
        rename_i rest; cases rest <;> simp_all [Adj, ev_user, ev_cons]
      · rw [hf] at h'; cases h'
    | unwind hf => simp [ev_user, ev_cons]
    | ontop hf hu' => rw [show s.unw d = true from hu] at hu'; cases hu'
    | ret hf hu' => rw [show s.unw d = true from hu] at hu'; cases hu'
    | dtor hf =>
      rcases h' hu with h' | ⟨r, h'⟩
      · rw [hf] at h'; simpa [ev_user, ev_cons] using h'
      · rw [hf] at h'; cases h'
  · have hu' : s.unw d = true := by cases hd <;> exact hu
    have := h d e hu'
    rw [frames_arr hd e]; exact this

theorem step_uinv {s s' : State} {t : Tid} {op : Op} (hi : Inv s) (ho : op ≠ .swallow) (hs : step s t op = .ok s') (hea : s'.early = false) (h : UInv s) : UInv s' := by
  obtain ⟨c, hc, he⟩ := step_eff hs
  have hrun := (hi.ci.curRun t c).1 hc
  have hwf := hi.ci.wf c (by rw [hrun]; simp)
  have hab : s.status s.nextCtx = .absent := (hi.ci.absent _).2 (Nat.le_refl _)
  have ne : ∀ {w}, s.status w = .suspended → w ≠ c := by rintro w h rfl; rw [hrun] at h; cases h
  have wfs : ∀ {w}, s.status w = .suspended → WF (s.frames w) := fun h => hi.ci.wf _ (by rw [h]; simp)
  clear hs
  have same : ∀ {s'' : State} {fs : List Frame}, s''.frames = upd s.frames c fs → s''.unw = s.unw → (evars (s.frames c) ≠ [] → evars fs ≠ []) → UInv s'' := by
    intro s'' fs h1 h2 h3 d hd
    rw [h2] at hd
    rw [h1, upd_apply]
    split
    · next e => subst e; exact h3 (h _ hd)
    · exact h _ hd
  have stay : ∀ {s'' : State}, s''.frames = s.frames → s''.unw = s.unw → UInv s'' := by
    intro s'' h1 h2 d hd; rw [h1]; rw [h2] at hd; exact h d hd
  cases he with
  | newHeap hf => exact stay rfl rfl
  | newLocal hf => exact same rfl rfl (by simp [hf, ev_user, ev_cons])
  | moveHeap hf ha => exact stay rfl rfl
  | moveLocal hf ha => exact same rfl rfl (by simp [hf, ev_user, ev_cons])
  | moveSelf hf ha => exact h
  | moveAssign hf ha hb hn hv => exact stay rfl rfl
  | swap hf ha hb => exact stay rfl rfl
  | dropLoc hf hx hv => exact same rfl rfl (by simp [hf, ev_user, ev_cons])
  | dropHeap hf hx hv => exact stay rfl rfl
  | @create k ls rest xs hf ha s2 h2 =>
    have hsame := capture_same ({ s with nextCtx := s.nextCtx + 1 }.addLog (.alloc s.nextCtx)) s.nextCtx xs
    rw [← h2] at hsame
    have h4 : s2.frames = s.frames := hsame.2.2.1
    have h5 : s2.unw = s.unw := by
      rw [h2]
      have : ∀ (xs : List Var) (s0 : State) (n : CtxId), (s0.capture n xs).unw = s0.unw := by
        intro xs
        induction xs with
        | nil => intro _ _; rfl
        | cons x xs ih => intro s0 n; simp only [State.capture]; rw [ih]; rfl
      rw [this]; rfl
    intro d hd
    simp only [upd_apply, h4, h5] at hd ⊢
    by_cases e2 : d = s.nextCtx
    · simp [e2] at hd
    · simp only [e2, if_false] at hd ⊢
      split
      · next e => subst e; simpa [hf, ev_user, ev_cons] using h _ hd
      · exact h _ hd
  | createThrows hf ha => exact same rfl rfl (by simp [hf, ev_user, ev_cons])
  | @resume k ls rest x w s' hf ha hv hsu hd =>
    have hw := ne hsu
    refine uinv_arr hd (by simpa [sw, State.setFrames, State.setVal, hw] using wfs hsu) (fun d _ hu => ?_) (fun hu => .inl ?_)
    · simp only [sw, State.setFrames, State.setVal, upd_apply]; split
      · next e => subst e; simpa [ev_user, ev_cons] using h _ hu
      · exact h _ hu
    · simpa [sw, State.setFrames, State.setVal, hw] using h _ hu
  | @resumeWith k ls rest x w s' hf ha hv hsu hd =>
    have hw := ne hsu
    refine uinv_arr hd (by simpa [sw, hw] using wfs hsu) (fun d _ hu => ?_) (fun hu => .inl ?_)
    · simp only [sw, upd_apply]; split
      · next e => subst e; simpa [ev_user, ev_cons] using h _ hu
      · exact h _ hu
    · simpa [sw, hw] using h _ hu
  | call hf => exact same rfl rfl (by simp [hf, ev_user, ev_cons])
  | cleanup hf hr => exact same rfl rfl (by simp [hf, ev_user, ev_cons])
  | ret hf hk => exact same rfl rfl (by simp [hf, ev_user, ev_cons])
  | retHandle hf ha hk => exact same rfl rfl (by simp [hf, ev_user, ev_cons])
  | throw hf => exact same rfl rfl (by simp [hf, ev_user, ev_cons])
  | spawn hf =>
    intro d hd
    simp only [upd_apply] at hd ⊢
    by_cases e2 : d = s.nextCtx
    · simp [e2] at hd
    · simp only [e2, if_false] at hd ⊢; exact h _ hd
  | @destroy op s1 v s' h1 h2 =>
    have hnd := preDst_not_dtor hi h1
    have hval : ∃ x, s.val x = some v := by cases h1 <;> exact ⟨_, by assumption⟩
    obtain ⟨x0, hx0⟩ := hval
    have k7 : v ≠ c := by
      rintro rfl
      rcases (hi.vi.valid _ _ hx0).1 with h | h <;> rw [hrun] at h <;> cases h
    have key : UInv s1 ∧ s1.frames v = s.frames v ∧ s1.status = s.status := by
      cases h1 with
      | moveAssign hf ha hb hn hv => exact ⟨stay rfl rfl, rfl, rfl⟩
      | dropLoc hf hx hv => exact ⟨same rfl rfl (by simp [hf, ev_user, ev_cons]), by simp [k7], rfl⟩
      | dropHeap hf hx hv => exact ⟨stay rfl rfl, rfl, rfl⟩
      | tick hf hm hv => exact ⟨same rfl rfl (by simp only [hf, ev_user, (ev_cons (v := 0)).1, me_normal, me_ret, List.nil_append]; exact id), by simp [k7], rfl⟩
      | exit hf hcap hv => exact ⟨stay rfl rfl, rfl, rfl⟩
    obtain ⟨k1, k4, k9⟩ := key
    cases h2 with
    | root hr => exact fun d hd => k1 d hd
    | term hr ht hs =>
      intro d hd
      simp only [State.setFrames, upd_apply]; split
      · next e => subst e; simpa [ev_user, ev_cons] using k1 _ hd
      · exact k1 _ hd
    | unwind hr ht hs ha =>
      rw [k9] at hs
      refine uinv_arr ha (by simpa [sw, k7, k4] using wfs hs) (fun d hdv hu => ?_) (fun _ => ?_)
      · simp only [sw, upd_apply, hdv, if_false] at hu ⊢; split
        · next e => subst e; simpa [ev_user, ev_cons] using k1 _ hu
        · exact k1 _ hu
      · have hst := hi.ci.susp v hs
        simp only [sw, upd_apply, k7, if_false, k4]
        cases ha with
        | @entry rest hf =>
          have hf' : s.frames v = .entryJump :: rest := by rw [← k4]; simpa [sw, k7] using hf
          have hw := wfs hs
          rw [hf'] at hw
          have : rest = [] := by have := hw.1; cases rest <;> simp_all [Adj]
          simp [sw, k4, hf', this] at hea
        | @dtor v2 rest hf =>
          have hf' : s.frames v = .dtor v2 :: rest := by rw [← k4]; simpa [sw, k7] using hf
          exact absurd (dtorTop_iff.2 ⟨rest, hf'⟩) (hnd v2)
        | unwind hf | ontop hf | ret hf => exact .inr ⟨_, by rw [← k4]; simpa [sw, k7] using hf⟩
  | tickLocal hf hm hv => exact same rfl rfl (by simp only [hf, ev_user, (ev_cons (v := 0)).1, me_normal, me_ret, List.nil_append]; exact id)
  | exitCap hf hcap hv => exact stay rfl rfl
  | catchUser hf => exact same rfl rfl (by simp [hf, ev_user, ev_cons])
  | swallow => exact absurd rfl ho
  | swallowNone => exact absurd rfl ho
  | propCall hf =>
    have hm := by rw [hf] at hwf; exact wf_callTop hwf
    subst hm
    exact same rfl rfl (by simp only [hf, ev_user, (ev_cons (v := 0)).1, me_normal, me_ret, List.nil_append]; exact id)
  | @propFn x rest s' hf hd =>
    obtain ⟨hp, hsu, ha⟩ := hd
    rename_i w
    replace hsu : s.status w = .suspended := hsu
    have hw := ne hsu
    refine uinv_arr ha (by simpa [sw, State.kill, hw] using wfs hsu) (fun d _ hu => ?_) (fun hu => .inl ?_)
    · simp only [sw, State.kill, upd_apply] at hu ⊢; split
      · next e => subst e; simp at hu
      · next e => exact h _ (by simpa [e] using hu)
    · simpa [sw, State.kill, hw] using h w (by simpa [sw, State.kill, hw] using hu)
  | @propOntop i e k ls m rest hf =>
    have hm : m = .normal := by rw [hf] at hwf; exact wf_resume hwf.2
    subst hm
    exact same rfl rfl (by simp only [hf, ev_user, (ev_cons (v := 0)).1, me_normal, me_ret, List.nil_append]; exact id)
  | leaveMain hf =>
    have hr := by rw [hf] at hwf; exact hwf.1.2
    subst hr
    exact same rfl rfl (by simp [hf, ev_user, ev_cons])
  | leaveCall hf hk => rcases hk with rfl | rfl <;> exact same rfl rfl (by simp [hf, ev_user, ev_cons])
  | @leaveFn x rest s' hf hd =>
    obtain ⟨hp, hsu, ha⟩ := hd
    rename_i w
    replace hsu : s.status w = .suspended := hsu
    have hw := ne hsu
    refine uinv_arr ha (by simpa [sw, State.kill, hw] using wfs hsu) (fun d _ hu => ?_) (fun hu => .inl ?_)
    · simp only [sw, State.kill, upd_apply] at hu ⊢; split
      · next e => subst e; simp at hu
      · next e => exact h _ (by simpa [e] using hu)
    · simpa [sw, State.kill, hw] using h w (by simpa [sw, State.kill, hw] using hu)
  | @leaveOntop i x k ls m rest hf => exact same rfl rfl (by simp only [hf, ev_user, (ev_cons (v := 0)).1, me_normal, me_ret, List.nil_append]; exact id)
  | @exitDtor n v rest hf hcap hst =>
    intro d hd
    simp only [upd_apply]; split
    · next e => subst e; simpa [hf, ev_user, ev_cons] using h _ hd
    · split
      · next e => subst e; have := h _ hd; rw [hi.ci.fTerm _ hst] at this; simp [ev_user, ev_cons] at this
      · exact h _ hd
  | @exitDone n rest hf hcap hst hn =>
    intro d hd
    simp only [upd_apply]; split
    · next e => subst e; simpa [hf, ev_user, ev_cons] using h _ hd
    · split
      · next e => subst e; have := h _ hd; rw [hi.ci.fTerm _ hst] at this; simp [ev_user, ev_cons] at this
      · exact h _ hd

end Verif.EH.U
