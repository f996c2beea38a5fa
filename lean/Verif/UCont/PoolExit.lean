import Verif.UCont.PoolAny

/-!
# C95: the contexts of a pool finish

A context of the pool ends its function with `return std::move(x)`, `x` one of the shared handles: the context designated by `x` continues, the stack of the one that ended is given back.
-/

namespace Verif.UCont
open Verif.Fiber (CtxId Var Tid Kind Exc Mode UKind Status Event upd upd_apply)
open State

theorem designated_susp {s : State} {x : Var} {d : CtxId} {k : UKind} {ls : List Var} {rest : List Frame} (h : Reachable s) (hd : Designates s x d) (hr : InResume s d k ls rest) : s.status d = .suspended := by
  have hi := (reachable_facts h).inv
  rcases (hi.vi.valid x d hd).1 with h | h
  · exact h
  · have := hi.ci.fTerm d h
    rw [abs_frames, show s.frames d = _ from hr] at this; simp [Frame.abs] at this

/-- A return destroys the local handles one after the other; empty ones without further effect. -/
theorem ticks_run {t : Tid} {c : CtxId} {k : UKind} {m : Mode} {rest : List Frame} (hm : m ≠ .normal) : ∀ (ls : List Var) (s : State), s.cur t = some c → s.frames c = .user k ls m :: rest →
    (∀ y ∈ ls, s.val y = none) →
    run s (List.replicate ls.length (t, .tick)) = .ok { s with
      frames := upd s.frames c (.user k [] m :: rest)
      kind := fun y => if y ∈ ls then .dead else s.kind y } := by
  intro ls
  induction ls with
  | nil =>
    intro s hc hf _
    simp only [List.length_nil, List.replicate_zero, run, Res.ok.injEq]
    obtain ⟨⟩ := s
    simp only [State.mk.injEq, true_and] at hf ⊢
    refine ⟨?_, by simp⟩
    funext e; simp only [upd_apply]; split
    · next h => rw [h]; exact hf
    · rfl
  | cons a ls ih =>
    intro s hc hf hv
    have ha : s.val a = none := hv a List.mem_cons_self
    obtain ⟨s1, hs1⟩ : ∃ s1 : State, s1 = { s with
      frames := upd s.frames c (.user k ls m :: rest)
      kind := upd s.kind a .dead } := ⟨_, rfl⟩
    have e1 : step s t .tick = .ok s1 := by
      rw [hs1]
      cases m with
      | normal => exact absurd rfl hm
      | unwinding e =>
        simp only [step, hc, hf, State.destroyVar, State.setFrames, ha, State.kill, Res.ok.injEq, State.mk.injEq, true_and, and_true]
        funext e; simp only [upd_apply]; split
        · next h => rw [h, ha]
        · rfl
      | returning e =>
        simp only [step, hc, hf, State.destroyVar, State.setFrames, ha, State.kill, Res.ok.injEq, State.mk.injEq, true_and, and_true]
        funext e; simp only [upd_apply]; split
        · next h => rw [h, ha]
        · rfl
    simp only [List.length_cons, List.replicate_succ, run, e1]
    rw [ih s1 (by rw [hs1]; exact hc) (by rw [hs1]; simp) fun y hy => by rw [hs1]; exact hv y (List.mem_cons_of_mem _ hy)]
    rw [hs1]
    simp only [Res.ok.injEq, State.mk.injEq, true_and, and_true]
    refine ⟨?_, ?_⟩
    · funext e; simp only [upd_apply]; split <;> rfl
    · funext e; simp only [upd_apply, List.mem_cons]
      by_cases h1 : e = a <;> by_cases h2 : e ∈ ls <;> simp [h1, h2]

/-- `return std::move(x)`; the locals are destroyed; the context designated by `x` continues, with a handle of the finished context, and drops it: the record and the stack of the finished context are released -/
def finishes (t : Tid) (x : Var) (n : Nat) (v : Var) : List (Tid × Op) := (t, .retHandle x) :: (List.replicate n (t, .tick) ++ [(t, .tick), (t, .drop (v + 1)), (t, .tick)])

/-- the state after that -/
def ended (s : State) (t : Tid) (c d : CtxId) (x : Var) (ls : List Var) (fs : List Frame) : State :=
  { s with
    cur := upd s.cur t (some d)
    status := upd (upd s.status c .freed) d (.running t)
    frames := upd (upd s.frames c []) d fs
    kind := fun y => if y ∈ ls then .dead else s.kind y
    val := upd s.val x none
    frm := upd (upd s.frm c none) d none
    term := upd s.term c true
    nextVar := s.nextVar + 2
    log := .dealloc c :: s.log }

theorem finish_run {s : State} {t : Tid} {c d : CtxId} {x : Var} {k' : UKind} {ls ls' : List Var} {rest' : List Frame} (h : Reachable s) (hu : UserCode s t c .fn ls [.entryRun])
    (hx : Handle s x) (hd : Designates s x d) (hr : InResume s d k' ls' rest') (hw : s.unw d = false) (ho : s.ontop d = none) (hw' : s.unw c = false) (ho' : s.ontop c = none) (hrt : s.root c = false)
    (hls : ∀ y ∈ ls, y ≠ x → s.val y = none) (hcap : s.caps c = []) :
    run s (finishes t x ls.length s.nextVar) = .ok (ended s t c d x ls (.user k' ls' .normal :: rest')) := by
  have hi := (reachable_facts h).inv
  have hf : s.val x = some d := hd
  have hst : s.status d = .suspended := designated_susp h hd hr
  have hcf : d ≠ c := UFiber.susp_ne hi hu.1 hst
  obtain ⟨v, hv⟩ : ∃ v, v = s.nextVar := ⟨_, rfl⟩
  have fk : s.kind v = .dead := hi.oi.fresh _ (Nat.le_of_eq hv.symm)
  have fv : s.val v = none := hi.vi.deadNone _ fk
  have fk1 : s.kind (v + 1) = .dead := hi.oi.fresh _ (show s.nextVar ≤ v + 1 by omega)
  have fv1 : s.val (v + 1) = none := hi.vi.deadNone _ fk1
  have ax := handle_accessible hx
  have nx : x ≠ v := fun e => by rw [e] at ax; simp [State.accessible, fk] at ax
  have nx1 : x ≠ v + 1 := fun e => by rw [e] at ax; simp [State.accessible, fk1] at ax
  obtain ⟨hcur, hfr⟩ := hu
  have nls : ∀ y ∈ ls, y ≠ v ∧ y ≠ v + 1 := fun y hy => by
    have hk : s.kind y = .loc c := (hi.oi.locs c y).1 (by rw [abs_frames, hfr]; simp [Frame.abs, Fiber.lvars, Fiber.Frame.lvars, hy])
    exact ⟨fun e => (by rw [e, fk] at hk; cases hk), fun e => (by rw [e, fk1] at hk; cases hk)⟩
  -- the return statement
  obtain ⟨s1, hs1⟩ : ∃ s1 : State, s1 = { s with
      val := upd (upd s.val x none) v (some d)
      kind := upd s.kind v (.ret c)
      nextVar := v + 1
      frames := upd s.frames c [.user .fn ls (.returning (some v)), .entryRun] } := ⟨_, rfl⟩
  have e1 : step s t (.retHandle x) = .ok s1 := by
    rw [hs1]
    simp only [step, hcur, hfr, userStep, ax, if_true, State.newVar, State.setVal, State.setFrames, hf, ← hv]
  -- the locals
  have e2 := ticks_run (t := t) (c := c) (k := .fn) (m := .returning (some v)) (rest := [.entryRun]) (by simp) ls s1 (by rw [hs1]; exact hcur) (by rw [hs1]; simp) fun y hy => by
    rw [hs1]; simp only [upd_apply, (nls y hy).1, if_false]
    split
    · rfl
    · next h => exact hls y hy h
  obtain ⟨s2, hs2⟩ : ∃ s2 : State, s2 = { s1 with
      frames := upd s1.frames c [.user .fn [] (.returning (some v)), .entryRun]
      kind := fun y => if y ∈ ls then .dead else s1.kind y } := ⟨_, rfl⟩
  rw [← hs2] at e2
  -- the function is left
  have c1 : s2.cur t = some c := by rw [hs2, hs1]; exact hcur
  have c2 : s2.frames c = [.user .fn [] (.returning (some v)), .entryRun] := by rw [hs2]; simp
  have c3 : s2.val v = some d := by rw [hs2, hs1]; simp
  have c4 : s2.status d = .suspended := by rw [hs2, hs1]; exact hst
  have c5 : s2.nextVar = v + 1 := by rw [hs2, hs1]
  have c6 : s2.frames d = .resume :: .user k' ls' .normal :: rest' := by rw [hs2, hs1]; simp [hcf]; exact hr
  have c7 : s2.unw d = false ∧ s2.ontop d = none := by rw [hs2, hs1]; exact ⟨hw, ho⟩
  have c8 : s2.unw c = false ∧ s2.ontop c = none := by rw [hs2, hs1]; exact ⟨hw', ho'⟩
  obtain ⟨s3, hs3⟩ : ∃ s3 : State, s3 = { s2 with
      cur := upd s2.cur t (some d)
      status := upd (upd s2.status c .terminated) d (.running t)
      frm := upd (upd s2.frm c none) d none
      term := upd s2.term c true
      frames := upd (upd s2.frames c [.exitJump]) d (.user k' ((v + 1) :: ls') .normal :: rest')
      kind := upd (upd s2.kind v .dead) (v + 1) (.loc d)
      val := upd (upd s2.val v none) (v + 1) (some c)
      nextVar := v + 2 } := ⟨_, rfl⟩
  have e3 : step s2 t .tick = .ok s3 := by
    rw [hs3]
    simp [step, c1, c2, leave, c3, State.kill, State.finish, State.setFrames, State.switchTo, State.arrive, c4, hcf, c6, c7.1, c7.2, State.newVar, c5]
    refine ⟨?_, ?_, ?_⟩
    · funext e; simp only [upd_apply]; split <;> rfl
    · funext e; simp only [upd_apply]; split
      · next h => rw [h, c8.2]
      · rfl
    · funext e; simp only [upd_apply]; split
      · next h => rw [h, c8.1]
      · rfl
  -- the handle of the finished context is dropped
  have d1 : s3.cur t = some d := by rw [hs3]; simp
  have d2 : s3.frames d = .user k' ((v + 1) :: ls') .normal :: rest' := by rw [hs3]; simp
  have d3 : s3.caps c = [] := by rw [hs3, hs2, hs1]; exact hcap
  have d4 : s3.status c = .terminated := by rw [hs3]; simp [Ne.symm hcf]
  have d5 : s3.val (v + 1) = some c := by rw [hs3]; simp
  have d6 : s3.root c = false := by rw [hs3, hs2, hs1]; exact hrt
  have d7 : s3.term c = true := by rw [hs3]; simp
  obtain ⟨s4, hs4⟩ : ∃ s4 : State, s4 = { s3 with
      frames := upd s3.frames d (.exiting c :: .user k' ls' .normal :: rest')
      kind := upd s3.kind (v + 1) .dead
      val := upd s3.val (v + 1) none } := ⟨_, rfl⟩
  have e4 : step s3 t (.drop (v + 1)) = .ok s4 := by
    rw [hs4]
    simp [step, d1, d2, userStep, State.destroyVar, State.setFrames, d5, State.kill, State.destroyPtr, d4, d6, d7]
    funext e; simp only [upd_apply]; split <;> rfl
  -- release
  have g1 : s4.cur t = some d := by rw [hs4]; exact d1
  have g2 : s4.frames d = .exiting c :: .user k' ls' .normal :: rest' := by rw [hs4]; simp
  have g3 : s4.caps c = [] := by rw [hs4]; exact d3
  have g4 : s4.status c = .terminated := by rw [hs4]; exact d4
  have e5 : step s4 t .tick = .ok (ended s t c d x ls (.user k' ls' .normal :: rest')) := by
    simp only [step, g1, g2, exitStep, g3, g4, if_true, State.addLog, State.setFrames]
    rw [hs4, hs3, hs2, hs1]
    simp only [ended, Res.ok.injEq, State.mk.injEq, true_and, and_true]
    refine ⟨?_, ?_, ?_, ?_, by rw [hv]⟩
    · funext e; simp only [upd_apply]; by_cases q1 : e = c <;> by_cases q2 : e = d <;> simp [q1, q2, hcf, Ne.symm hcf]
    · funext e; simp only [upd_apply]; by_cases q1 : e = c <;> by_cases q2 : e = d <;> simp [q1, q2, Ne.symm hcf]
    · funext e; simp only [upd_apply]
      by_cases q1 : e = v + 1
      · subst q1; rw [fk1]; simp
      · by_cases q2 : e = v
        · subst q2; rw [fk]; simp
        · simp [q1, q2]
    · funext e; simp only [upd_apply]
      by_cases q1 : e = v + 1
      · subst q1; rw [fv1]; simp
      · by_cases q2 : e = v
        · subst q2; rw [fv]; simp
        · simp [q1, q2]
  simp only [finishes, run, e1, ← hv]
  rw [run_append' e2]
  simp only [run, e3, e4, e5]

/-- The function of context `c` can end with nothing left to do: it owns no handle (its locals, none of them one of the shared objects `X`, are empty and its function object captured none); and it is not the main context of a thread. -/
def CanEnd (s : State) (X : List Var) (b : Stacks) (c : CtxId) : Prop :=
  (b c).1 = .fn ∧ (b c).2.2 = [.entryRun] ∧ (∀ y ∈ (b c).2.1, y ∉ X ∧ s.val y = none) ∧ s.caps c = [] ∧ s.root c = false

/-- **C95** A context of the pool returns one of the shared handles from its function: the context designated by it continues where it waited, with an empty handle; the stack of the context that has ended is given
back, once, and the rest of the pool is what it was. -/
theorem C95_ucontinuation_pool_exit {s : State} {t : Tid} {X : List Var} {b : Stacks} {c d : CtxId} {x : Var} (h : Reachable s) (hp : Pool s t X b c) (hc : CanEnd s X b c) (hx : x ∈ X) (hd : Designates s x d) :
    ∃ s', run s (finishes t x (b c).2.1.length s.nextVar) = .ok s' ∧ Pool s' t (X.filter (· ≠ x)) b d ∧ (∀ e, Member s' (X.filter (· ≠ x)) d e ↔ Member s X c e ∧ e ≠ c) ∧
      s'.status c = .freed ∧ s'.log = .dealloc c :: s.log ∧ (∀ e, e ≠ c → e ≠ d → s'.frames e = s.frames e ∧ s'.status e = s.status e) ∧ (∀ t', t' ≠ t → s'.cur t' = s.cur t') ∧
      s'.val x = none ∧ (∀ z, z ≠ x → s'.val z = s.val z) ∧ (∀ z, z ∉ (b c).2.1 → s'.kind z = s.kind z) ∧ s'.caps = s.caps ∧ s'.nextVar = s.nextVar + 2 ∧ s'.root = s.root := by
  obtain ⟨hu, hu1, hu2, hw⟩ := hp
  obtain ⟨k1, k2, k3, k4, k5⟩ := hc
  have hi := (reachable_facts h).inv
  obtain ⟨hx1, d', hd', hr, hr1, hr2⟩ := hw x hx
  have hdd : d' = d := Option.some.inj ((show s.val x = some d' from hd').symm.trans hd)
  subst hdd
  rw [k1, k2] at hu
  have e1 := finish_run h hu hx1 hd hr hr1 hr2 hu1 hu2 k5 (fun y hy _ => (k3 y hy).2) k4
  have hf : s.val x = some d' := hd
  have hdc : d' ≠ c := UFiber.susp_ne hi hu.1 (designated_susp h hd hr)
  have hne : ∀ y e, y ≠ x → y ∈ X → s.val y = some e → e ≠ d' ∧ e ≠ c := fun y e hy hyX hg => by
    refine ⟨fun hed => hy (hi.vi.inj y x d' (hed ▸ hg) hf), ?_⟩
    obtain ⟨-, e', he', hr', -⟩ := hw y hyX
    have : e = e' := by rw [show s.val y = some e' from he'] at hg; exact (Option.some.inj hg).symm
    subst this
    exact UFiber.susp_ne hi hu.1 (designated_susp h he' hr')
  obtain ⟨s1, hs1⟩ : ∃ s1, s1 = ended s t c d' x (b c).2.1 (.user (b d').1 (b d').2.1 .normal :: (b d').2.2) := ⟨_, rfl⟩
  rw [← hs1] at e1
  have hv1 : ∀ y, y ≠ x → s1.val y = s.val y := fun y hy => by rw [hs1]; simp [ended, hy]
  have hk1 : ∀ y, y ∉ (b c).2.1 → s1.kind y = s.kind y := fun y hy => by rw [hs1]; simp [ended, hy]
  have hfr : ∀ e, e ≠ c → e ≠ d' → s1.frames e = s.frames e ∧ s1.status e = s.status e := fun e h1 h2 => by rw [hs1]; simp [ended, h1, h2]
  refine ⟨s1, e1, ⟨⟨by rw [hs1]; simp [ended], by rw [hs1]; simp [ended]⟩, by rw [hs1]; exact hr1, by rw [hs1]; exact hr2, fun y hy => ?_⟩, fun e => ?_, by rw [hs1]; simp [ended, Ne.symm hdc], by rw [hs1]; rfl, hfr,
    fun t' ht => by rw [hs1]; simp [ended, ht], by rw [hs1]; simp [ended], hv1, hk1, by rw [hs1]; rfl, by rw [hs1]; rfl, by rw [hs1]; rfl⟩
  · obtain ⟨hyX, hyx⟩ := List.mem_filter.1 hy
    have hyx : y ≠ x := of_decide_eq_true hyx
    refine ⟨?_, ?_⟩
    · unfold Handle; rw [hk1 y fun hm => (k3 y hm).1 hyX, show s1.hidden = s.hidden by rw [hs1]; rfl]; exact (hw y hyX).1
    · obtain ⟨-, e, hg, hge', w1, w2⟩ := hw y hyX
      obtain ⟨n1, n2⟩ := hne y e hyx hyX hg
      refine ⟨e, (hv1 y hyx).trans hg, ?_, by rw [hs1]; exact w1, by rw [hs1]; exact w2⟩
      unfold InResume at hge' ⊢
      rw [(hfr e n2 n1).1]; exact hge'
  · constructor
    · rintro (rfl | ⟨y, hy, hg⟩)
      · exact ⟨.inr ⟨x, hx, hf⟩, hdc⟩
      · obtain ⟨hyX, hyx⟩ := List.mem_filter.1 hy
        have hyx : y ≠ x := of_decide_eq_true hyx
        replace hg : s.val y = some e := (hv1 y hyx).symm.trans hg
        exact ⟨.inr ⟨y, hyX, hg⟩, (hne y e hyx hyX hg).2⟩
    · rintro ⟨rfl | ⟨y, hy, hg⟩, hec⟩
      · exact absurd rfl hec
      · by_cases hyx : y = x
        · subst hyx; exact .inl (Option.some.inj ((show s.val y = some e from hg).symm.trans hf))
        · exact .inr ⟨y, List.mem_filter.2 ⟨hy, decide_eq_true hyx⟩, (hv1 y hyx).trans hg⟩

/-- the contexts that run one after the other when the handles of `p` are returned in turn -/
def Chain (s : State) : List Var → List CtxId → Prop
  | [], [] => True
  | x :: p, d :: ds => Designates s x d ∧ Chain s p ds
  | _, _ => False

theorem Chain.mono {s s' : State} : ∀ {p : List Var} {ds : List CtxId}, Chain s p ds → (∀ y ∈ p, s'.val y = s.val y) → Chain s' p ds
  | [], [], _, _ => trivial
  | x :: _, _ :: _, h, hv => ⟨(hv x List.mem_cons_self).trans h.1, h.2.mono fun y hy => hv y (List.mem_cons_of_mem _ hy)⟩

/-- every context of the chain but the last one ends: `c` returns the first handle of `p`, the context designated by it the second one, … -/
def drain (t : Tid) (b : Stacks) : List Var → CtxId → List CtxId → Var → List (Tid × Op)
  | x :: p, c, d :: ds, v => finishes t x (b c).2.1.length v ++ drain t b p d ds (v + 2)
  | _, _, _, _ => []

/-- **C95** A pool is wound up: the contexts of the pool end their functions one after the other, each returning the handle of the next one, in any order and to any number. All this goes through; the last context of
the chain runs; the others have ended, and the stack of each has been given back exactly once, in the order in which they ended; the contexts not in the chain are still there and wait where they waited. -/
theorem C95_ucontinuation_pool_drain {s : State} {t : Tid} {X : List Var} {b : Stacks} {c : CtxId} (h : Reachable s) (hp : Pool s t X b c) (p : List Var) (ds : List CtxId) (hX : ∀ x ∈ p, x ∈ X) (hn : p.Nodup)
    (hch : Chain s p ds) (hend : ∀ e ∈ (c :: ds).dropLast, CanEnd s X b e) :
    ∃ s', run s (drain t b p c ds s.nextVar) = .ok s' ∧ Pool s' t (X.filter (· ∉ p)) b ((c :: ds).getLast (by simp)) ∧
      (∀ e, Member s' (X.filter (· ∉ p)) ((c :: ds).getLast (by simp)) e ↔ Member s X c e ∧ e ∉ (c :: ds).dropLast) ∧ (∀ e ∈ (c :: ds).dropLast, s'.status e = .freed) ∧
      s'.log = ((c :: ds).dropLast.map Event.dealloc).reverse ++ s.log ∧ (∀ e, e ∉ c :: ds → s'.frames e = s.frames e ∧ s'.status e = s.status e) := by
  induction p generalizing s c ds X with
  | nil =>
    cases ds with
    | nil =>
      have hX0 : X.filter (· ∉ ([] : List Var)) = X := by simp
      refine ⟨s, rfl, ?_, fun e => ?_, by simp, by simp, fun _ _ => ⟨rfl, rfl⟩⟩
      · rw [hX0]; exact hp
      · rw [hX0]; simp
    | cons d ds => exact hch.elim
  | cons x p ih =>
    cases ds with
    | nil => exact hch.elim
    | cons d ds =>
      have hxX := hX x List.mem_cons_self
      obtain ⟨hxp, hn'⟩ := List.nodup_cons.1 hn
      obtain ⟨hd, hch'⟩ := hch
      rw [List.dropLast_cons_cons] at hend
      have hce := hend c List.mem_cons_self
      obtain ⟨s1, e1, p1, m1, st1, l1, f1, -, -, v1, k1, cp1, nv1, rt1⟩ := C95_ucontinuation_pool_exit h hp hce hxX hd
      have h1 : Reachable s1 := (steps_run e1).reachable h
      have hcd : d ≠ c := ((m1 d).1 (.inl rfl)).2
      have hXp : ∀ y ∈ p, y ∈ X.filter (· ≠ x) := fun y hy => List.mem_filter.2 ⟨hX y (List.mem_cons_of_mem _ hy), decide_eq_true fun hh => hxp (hh ▸ hy)⟩
      have hch1 : Chain s1 p ds := hch'.mono fun y hy => v1 y fun hh => hxp (hh ▸ hy)
      have hend1 : ∀ e ∈ (d :: ds).dropLast, CanEnd s1 (X.filter (· ≠ x)) b e := fun e he => by
        obtain ⟨q1, q2, q3, q4, q5⟩ := hend e (List.mem_cons_of_mem _ he)
        refine ⟨q1, q2, fun y hy => ⟨fun hm => (q3 y hy).1 (List.mem_filter.1 hm).1, ?_⟩, by rw [cp1]; exact q4, by rw [rt1]; exact q5⟩
        rw [v1 y fun hh => (q3 y hy).1 (hh ▸ hxX)]; exact (q3 y hy).2
      obtain ⟨s', e2, p2, m2, st2, l2, f2⟩ := ih h1 p1 ds hXp hn' hch1 hend1
      have hfil : (X.filter (· ≠ x)).filter (· ∉ p) = X.filter (· ∉ x :: p) := by
        rw [List.filter_filter]; congr 1; funext y; simp [List.mem_cons, not_or, Bool.and_comm]
      rw [hfil] at p2 m2
      have hmem : ∀ e, Member s' (X.filter (· ∉ x :: p)) ((d :: ds).getLast (by simp)) e ↔ Member s X c e ∧ e ∉ c :: (d :: ds).dropLast := fun e => by
        rw [m2, m1, List.mem_cons, not_or, and_assoc]
      refine ⟨s', ?_, by simpa using p2, ?_, ?_, ?_, fun e he => ?_⟩
      · simp only [drain]; rw [run_append' e1, ← nv1]; exact e2
      · intro e; rw [List.dropLast_cons_cons]; simpa using hmem e
      · rw [List.dropLast_cons_cons]
        intro e hel
        rcases List.mem_cons.1 hel with rfl | hel
        · by_cases hm : e ∈ d :: ds
          · rcases (List.mem_cons.1 hm) with rfl | hm
            · exact absurd rfl hcd
            · -- a context that has ended is designated by no handle
              exfalso
              have : ∀ (p : List Var) (ds : List CtxId), Chain s p ds → e ∈ ds → ∃ y ∈ p, Designates s y e := by
                intro p
                induction p with
                | nil => intro ds hc hm; cases ds with
                  | nil => cases hm
                  | cons => exact hc.elim
                | cons y p ih' => intro ds hc hm; cases ds with
                  | nil => cases hm
                  | cons a ds =>
                    rcases List.mem_cons.1 hm with rfl | hm
                    · exact ⟨y, List.mem_cons_self, hc.1⟩
                    · obtain ⟨z, hz, hz'⟩ := ih' ds hc.2 hm
                      exact ⟨z, List.mem_cons_of_mem _ hz, hz'⟩
              obtain ⟨y, hyp, hg⟩ := this p ds hch' hm
              obtain ⟨-, e', he', hr', -⟩ := hp.2.2.2 y (hX y (List.mem_cons_of_mem _ hyp))
              have : e' = e := Option.some.inj ((show s.val y = some e' from he').symm.trans hg)
              subst this
              exact UFiber.susp_ne (reachable_facts h).inv hp.1.1 (designated_susp h he' hr') rfl
          · rw [(f2 e hm).2]; exact st1
        · exact st2 e hel
      · rw [l2, l1, List.dropLast_cons_cons]; simp
      · simp only [List.mem_cons, not_or] at he
        have a := f2 e (by simp only [List.mem_cons, not_or]; exact he.2)
        have b := f1 e he.1 he.2.1
        exact ⟨a.1.trans b.1, a.2.trans b.2⟩

/-- main has handed control to context 1 -/
def hDrain : List (Tid × Op) := hSched ++ half 0 2 2 6

theorem hDrain_pool : Pool (exec hDrain) 0 [2, 5] bSched 1 :=
  ⟨⟨by decide, by decide⟩, by decide, by decide, fun x hx => by
    rcases List.mem_cons.1 hx with rfl | hx
    · exact ⟨⟨.inr (.inl ⟨0, by decide⟩), by decide⟩, 0, by unfold Designates; decide, by unfold InResume; decide, by decide, by decide⟩
    · cases List.mem_singleton.1 hx
      exact ⟨⟨.inr (.inl ⟨0, by decide⟩), by decide⟩, 2, by unfold Designates; decide, by unfold InResume; decide, by decide, by decide⟩⟩

theorem hDrain_canEnd : CanEnd (exec hDrain) [2, 5] bSched 1 ∧ CanEnd (exec hDrain) [2, 5] bSched 2 :=
  ⟨⟨rfl, rfl, fun y hy => by cases List.mem_singleton.1 hy; exact ⟨by decide, by decide⟩, by decide, by decide⟩, ⟨rfl, rfl, fun y hy => by cases List.mem_singleton.1 hy; exact ⟨by decide, by decide⟩, by decide, by decide⟩⟩

/-- the hypotheses can be met: context 1 returns the handle of main -/
example : ∃ s', run (exec hDrain) (finishes 0 2 1 (exec hDrain).nextVar) = .ok s' ∧ Pool s' 0 [5] bSched 0 ∧ s'.status 1 = .freed := by
  obtain ⟨s', h1, h2, -, h3, -⟩ := C95_ucontinuation_pool_exit (reachable_exec (by decide)) hDrain_pool hDrain_canEnd.1 (x := 2) (d := 0) (by simp) (by unfold Designates; decide)
  exact ⟨s', h1, h2, h3⟩

/-- … context 1 returns the handle of context 2, which returns that of main -/
example : ∃ s', run (exec hDrain) (drain 0 bSched [5, 2] 1 [2, 0] (exec hDrain).nextVar) = .ok s' ∧ Pool s' 0 [] bSched 0 ∧ s'.log = .dealloc 2 :: .dealloc 1 :: (exec hDrain).log := by
  obtain ⟨s', h1, h2, -, -, h3, -⟩ := C95_ucontinuation_pool_drain (reachable_exec (by decide)) hDrain_pool [5, 2] [2, 0] (by simp) (by decide) ⟨(by unfold Designates; decide), (by unfold Designates; decide), trivial⟩ (by
    intro e he
    rcases List.mem_cons.1 he with rfl | he
    · exact hDrain_canEnd.1
    · cases List.mem_singleton.1 he; exact hDrain_canEnd.2)
  exact ⟨s', h1, h2, h3⟩

end Verif.UCont
