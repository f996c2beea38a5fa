import Verif.Fiber.PoolAny

/-!
# C95: the contexts of a pool finish

A context of the pool ends its function with `return std::move(x)`, `x` one of the shared handles: the context designated by `x` continues, the stack of the one that ended is given back.
-/

namespace Verif.Fiber
open State

/-- A return destroys the local handles one after the other; empty ones without further effect. -/
theorem ticks_run {t : Tid} {c : CtxId} {k : UKind} {m : Mode} {rest : List Frame} (hm : m ≠ .normal) : ∀ (ls : List Var) (s : State), s.cur t = some c → s.frames c = .user k ls m :: rest →
    (∀ y ∈ ls, s.val y = none) →
    run s (List.replicate ls.length (t, .tick)) = .ok { s with
      frames := upd s.frames c (.user k [] m :: rest)
      kind := fun y => if y ∈ ls then .dead else s.kind y } := by
  intro ls
  induction ls with
  | nil =>
    intro s hc hf _
    simp only [List.length_nil, List.replicate_zero, run, Res.ok.injEq]
    obtain ⟨⟩ := s
    simp only [State.mk.injEq, true_and] at hf ⊢
    refine ⟨?_, by simp⟩
    funext e; simp only [upd_apply]; split
    · next h => rw [h]; exact hf
    · rfl
  | cons a ls ih =>
    intro s hc hf hv
    have ha : s.val a = none := hv a List.mem_cons_self
    obtain ⟨s1, hs1⟩ : ∃ s1 : State, s1 = { s with
      frames := upd s.frames c (.user k ls m :: rest)
      kind := upd s.kind a .dead } := ⟨_, rfl⟩
    have e1 : step s t .tick = .ok s1 := by
      rw [hs1]
      cases m with
      | normal => exact absurd rfl hm
      | unwinding e =>
        simp only [step, hc, hf, State.destroyVar, State.setFrames, ha, State.kill, Res.ok.injEq, State.mk.injEq, true_and, and_true]
        funext e; simp only [upd_apply]; split
        · next h => rw [h, ha]
        · rfl
      | returning e =>
        simp only [step, hc, hf, State.destroyVar, State.setFrames, ha, State.kill, Res.ok.injEq, State.mk.injEq, true_and, and_true]
        funext e; simp only [upd_apply]; split
        · next h => rw [h, ha]
        · rfl
    simp only [List.length_cons, List.replicate_succ, run, e1]
    rw [ih s1 (by rw [hs1]; exact hc) (by rw [hs1]; simp) fun y hy => by rw [hs1]; exact hv y (List.mem_cons_of_mem _ hy)]
    rw [hs1]
    simp only [Res.ok.injEq, State.mk.injEq, true_and, and_true]
    refine ⟨?_, ?_⟩
    · funext e; simp only [upd_apply]; split <;> rfl
    · funext e; simp only [upd_apply, List.mem_cons]
      by_cases h1 : e = a <;> by_cases h2 : e ∈ ls <;> simp [h1, h2]

/-- `return std::move(x)`; the locals are destroyed; `fiber_exit` on top of the context designated by `x`; that context drops the (empty) handle it gets -/
def finishes (t : Tid) (x : Var) (n : Nat) (v : Var) : List (Tid × Op) := (t, .retHandle x) :: (List.replicate n (t, .tick) ++ [(t, .tick), (t, .tick), (t, .drop (v + 1))])

/-- the state after that -/
def ended (s : State) (t : Tid) (c d : CtxId) (x : Var) (ls : List Var) (fs : List Frame) : State :=
  { s with
    cur := upd s.cur t (some d)
    status := upd (upd s.status c .freed) d (.running t)
    seq := upd s.seq c (s.seq c + 1)
    frames := upd (upd s.frames c []) d fs
    kind := fun y => if y ∈ ls then .dead else s.kind y
    val := upd s.val x none
    nextVar := s.nextVar + 2
    log := .dealloc c :: s.log }

theorem finish_run {s : State} {t : Tid} {c d : CtxId} {x : Var} {k' : UKind} {ls ls' : List Var} {rest' : List Frame} (h : Reachable s) (hu : UserCode s t c .fn ls [.entryRun])
    (hx : Handle s x) (hd : Designates s x d) (hr : InResume s d k' ls' rest') (hls : ∀ y ∈ ls, y ≠ x → s.val y = none) (hcap : s.caps c = []) :
    run s (finishes t x ls.length s.nextVar) = .ok (ended s t c d x ls (.user k' ls' .normal :: rest')) := by
  have hi := reachable_inv h
  obtain ⟨f, hf, rfl⟩ := hd
  have hcf : f.ctx ≠ c := ((facts hi hu.1).2.2.2 x f hf).2.2
  obtain ⟨hst, hsq⟩ := hi.vi.valid x f hf
  obtain ⟨v, hv⟩ : ∃ v, v = s.nextVar := ⟨_, rfl⟩
  have fk : s.kind v = .dead := hi.oi.fresh _ (Nat.le_of_eq hv.symm)
  have fv : s.val v = none := hi.vi.deadNone _ fk
  have fk1 : s.kind (v + 1) = .dead := hi.oi.fresh _ (by omega)
  have fv1 : s.val (v + 1) = none := hi.vi.deadNone _ fk1
  have ax := handle_accessible hx
  have nx : x ≠ v := fun e => by rw [e] at ax; simp [State.accessible, fk] at ax
  have nx1 : x ≠ v + 1 := fun e => by rw [e] at ax; simp [State.accessible, fk1] at ax
  obtain ⟨hcur, hfr⟩ := hu
  have nls : ∀ y ∈ ls, y ≠ v ∧ y ≠ v + 1 := fun y hy => by
    have hk := (hi.oi.locs c y).1 (by rw [hfr]; simp [lvars, Frame.lvars, hy])
    exact ⟨fun e => (by rw [e, fk] at hk; cases hk), fun e => (by rw [e, fk1] at hk; cases hk)⟩
  -- the return statement
  obtain ⟨s1, hs1⟩ : ∃ s1 : State, s1 = { s with
      val := upd (upd s.val x none) v (some f)
      kind := upd s.kind v (.ret c)
      nextVar := v + 1
      frames := upd s.frames c [.user .fn ls (.returning (some v)), .entryRun] } := ⟨_, rfl⟩
  have e1 : step s t (.retHandle x) = .ok s1 := by
    rw [hs1]
    simp only [step, hcur, hfr, userStep, ax, if_true, State.newVar, State.setVal, State.setFrames, hf, ← hv]
  -- the locals
  have e2 := ticks_run (t := t) (c := c) (k := .fn) (m := .returning (some v)) (rest := [.entryRun]) (by simp) ls s1 (by rw [hs1]; exact hcur) (by rw [hs1]; simp) fun y hy => by
    rw [hs1]; simp only [upd_apply, (nls y hy).1, if_false]
    split
    · rfl
    · next h => exact hls y hy h
  obtain ⟨s2, hs2⟩ : ∃ s2 : State, s2 = { s1 with
      frames := upd s1.frames c [.user .fn [] (.returning (some v)), .entryRun]
      kind := fun y => if y ∈ ls then .dead else s1.kind y } := ⟨_, rfl⟩
  rw [← hs2] at e2
  -- the function is left
  have c1 : s2.cur t = some c := by rw [hs2, hs1]; exact hcur
  have c2 : s2.frames c = [.user .fn [] (.returning (some v)), .entryRun] := by rw [hs2]; simp
  have c3 : s2.val v = some f := by rw [hs2, hs1]; simp
  have c4 : s2.status f.ctx = .suspended := by rw [hs2, hs1]; exact hst
  have c5 : s2.seq f.ctx = f.seq := by rw [hs2, hs1]; exact hsq
  have c6 : s2.frames f.ctx = .resume :: .user k' ls' .normal :: rest' := by rw [hs2, hs1]; simp [hcf]; exact hr
  obtain ⟨s3, hs3⟩ : ∃ s3 : State, s3 = { s2 with
      cur := upd s2.cur t (some f.ctx)
      status := upd (upd s2.status c .terminated) f.ctx (.running t)
      seq := upd s2.seq c (s2.seq c + 1)
      frames := upd (upd s2.frames c [.exitJump]) f.ctx (.exiting c :: .resume :: .user k' ls' .normal :: rest')
      kind := upd s2.kind v .dead
      val := upd s2.val v none } := ⟨_, rfl⟩
  have e3 : step s2 t .tick = .ok s3 := by
    rw [hs3]
    simp only [step, c1, c2, leave, c3, State.kill, State.finish, State.setFrames, State.ontopSwitch, State.switch, c4, c5, true_or, true_and, if_true, upd_apply, hcf, if_false, c6]
  -- `fiber_exit`
  have d1 : s3.cur t = some f.ctx := by rw [hs3]; simp
  have d2 : s3.frames f.ctx = .exiting c :: .resume :: .user k' ls' .normal :: rest' := by rw [hs3]; simp
  have d3 : s3.caps c = [] := by rw [hs3, hs2, hs1]; exact hcap
  have d4 : s3.status c = .terminated := by rw [hs3]; simp [Ne.symm hcf]
  have d5 : s3.nextVar = v + 1 := by rw [hs3, hs2, hs1]
  obtain ⟨s4, hs4⟩ : ∃ s4 : State, s4 = { s3 with
      status := upd s3.status c .freed
      frames := upd (upd s3.frames c []) f.ctx (.user k' ((v + 1) :: ls') .normal :: rest')
      kind := upd s3.kind (v + 1) (.loc f.ctx)
      val := upd s3.val (v + 1) none
      nextVar := v + 2
      log := .dealloc c :: s3.log } := ⟨_, rfl⟩
  have e4 : step s3 t .tick = .ok s4 := by
    rw [hs4]
    simp only [step, d1, d2, exitStep, d3, d4, if_true, State.addLog, State.deliver, upd_apply, State.newVar, State.setFrames, d5, Res.ok.injEq, State.mk.injEq, true_and, and_true]
    funext e; simp only [upd_apply]; split <;> rfl
  -- the empty handle
  have g1 : s4.cur t = some f.ctx := by rw [hs4]; exact d1
  have g2 : s4.frames f.ctx = .user k' ((v + 1) :: ls') .normal :: rest' := by rw [hs4]; simp
  have g3 : s4.val (v + 1) = none := by rw [hs4]; simp
  have e5 : step s4 t (.drop (v + 1)) = .ok (ended s t c f.ctx x ls (.user k' ls' .normal :: rest')) := by
    simp only [step, g1, g2, userStep, List.mem_cons, true_or, if_true, List.erase_cons_head, State.destroyVar, State.setFrames, g3, State.kill]
    rw [hs4, hs3, hs2, hs1]
    simp only [ended, Res.ok.injEq, State.mk.injEq, true_and, and_true]
    refine ⟨?_, ?_, ?_, ?_, by rw [hv]⟩
    · funext e; simp only [upd_apply]; by_cases q1 : e = c <;> by_cases q2 : e = f.ctx <;> simp [q1, q2, hcf, Ne.symm hcf]
    · funext e; simp only [upd_apply]; by_cases q1 : e = c <;> by_cases q2 : e = f.ctx <;> simp [q1, q2, Ne.symm hcf]
    · funext e; simp only [upd_apply]
      by_cases q1 : e = v + 1
      · subst q1; rw [fk1]; simp
      · by_cases q2 : e = v
        · subst q2; rw [fk]; simp
        · simp [q1, q2]
    · funext e; simp only [upd_apply]
      by_cases q1 : e = v + 1
      · subst q1; rw [fv1]; simp
      · by_cases q2 : e = v
        · subst q2; rw [fv]; simp
        · simp [q1, q2]
  simp only [finishes, run, e1, ← hv]
  rw [run_append' e2]
  simp only [run, e3, e4, e5]

/-- The function of context `c` can end with nothing left to do: it owns no handle (its locals, none of them one of the shared objects `X`, are empty and its function object captured none). -/
def CanEnd (s : State) (X : List Var) (b : Stacks) (c : CtxId) : Prop :=
  (b c).1 = .fn ∧ (b c).2.2 = [.entryRun] ∧ (∀ y ∈ (b c).2.1, y ∉ X ∧ s.val y = none) ∧ s.caps c = []

/-- **C95** A context of the pool returns one of the shared handles from its function: the context designated by it continues where it waited, with an empty handle; the stack of the context that has ended is given
back, once, and the rest of the pool is what it was. -/
theorem C95_pool_exit {s : State} {t : Tid} {X : List Var} {b : Stacks} {c d : CtxId} {x : Var} (h : Reachable s) (hp : Pool s t X b c) (hc : CanEnd s X b c) (hx : x ∈ X) (hd : Designates s x d) :
    ∃ s', run s (finishes t x (b c).2.1.length s.nextVar) = .ok s' ∧ Pool s' t (X.filter (· ≠ x)) b d ∧ (∀ e, Member s' (X.filter (· ≠ x)) d e ↔ Member s X c e ∧ e ≠ c) ∧
      s'.status c = .freed ∧ s'.log = .dealloc c :: s.log ∧ (∀ e, e ≠ c → e ≠ d → s'.frames e = s.frames e ∧ s'.status e = s.status e) ∧ (∀ t', t' ≠ t → s'.cur t' = s.cur t') ∧
      s'.val x = none ∧ (∀ z, z ≠ x → s'.val z = s.val z) ∧ (∀ z, z ∉ (b c).2.1 → s'.kind z = s.kind z) ∧ s'.caps = s.caps ∧ s'.nextVar = s.nextVar + 2 := by
  obtain ⟨hu, hw⟩ := hp
  obtain ⟨k1, k2, k3, k4⟩ := hc
  have hi := reachable_inv h
  obtain ⟨hx1, d', hd', hr⟩ := hw x hx
  have hdd : d' = d := by
    obtain ⟨f, hf, rfl⟩ := hd
    obtain ⟨g, hg, rfl⟩ := hd'
    rw [hf] at hg; cases hg; rfl
  subst hdd
  rw [k1, k2] at hu
  have e1 := finish_run h hu hx1 hd hr (fun y hy _ => (k3 y hy).2) k4
  obtain ⟨f, hf, hfd⟩ := hd
  have hdc : d' ≠ c := hfd ▸ ((facts hi hu.1).2.2.2 x f hf).2.2
  have hne : ∀ y g, y ≠ x → s.val y = some g → g.ctx ≠ d' ∧ g.ctx ≠ c := fun y g hy hg =>
    ⟨fun e => hy (hi.vi.inj y x g f hg hf (e.trans hfd.symm)), ((facts hi hu.1).2.2.2 y g hg).2.2⟩
  obtain ⟨s1, hs1⟩ : ∃ s1, s1 = ended s t c d' x (b c).2.1 (.user (b d').1 (b d').2.1 .normal :: (b d').2.2) := ⟨_, rfl⟩
  rw [← hs1] at e1
  have hv1 : ∀ y, y ≠ x → s1.val y = s.val y := fun y hy => by rw [hs1]; simp [ended, hy]
  have hk1 : ∀ y, y ∉ (b c).2.1 → s1.kind y = s.kind y := fun y hy => by rw [hs1]; simp [ended, hy]
  have hfr : ∀ e, e ≠ c → e ≠ d' → s1.frames e = s.frames e ∧ s1.status e = s.status e := fun e h1 h2 => by rw [hs1]; simp [ended, h1, h2]
  refine ⟨s1, e1, ⟨⟨by rw [hs1]; simp [ended], by rw [hs1]; simp [ended]⟩, fun y hy => ?_⟩, fun e => ?_, by rw [hs1]; simp [ended, Ne.symm hdc], by rw [hs1]; rfl, hfr,
    fun t' ht => by rw [hs1]; simp [ended, ht], by rw [hs1]; simp [ended], hv1, hk1, by rw [hs1]; rfl, by rw [hs1]; rfl⟩
  · obtain ⟨hyX, hyx⟩ := List.mem_filter.1 hy
    have hyx : y ≠ x := of_decide_eq_true hyx
    refine ⟨?_, ?_⟩
    · unfold Handle; rw [hk1 y fun hm => (k3 y hm).1 hyX]; exact (hw y hyX).1
    · obtain ⟨-, e, ⟨g, hg, hge⟩, hge'⟩ := hw y hyX
      obtain ⟨n1, n2⟩ := hne y g hyx hg
      rw [hge] at n1 n2
      refine ⟨e, ⟨g, (hv1 y hyx).trans hg, hge⟩, ?_⟩
      unfold InResume at hge' ⊢
      rw [(hfr e n2 n1).1]; exact hge'
  · constructor
    · rintro (rfl | ⟨y, hy, g, hg, rfl⟩)
      · exact ⟨.inr ⟨x, hx, f, hf, hfd⟩, hdc⟩
      · obtain ⟨hyX, hyx⟩ := List.mem_filter.1 hy
        have hyx : y ≠ x := of_decide_eq_true hyx
        rw [hv1 y hyx] at hg
        exact ⟨.inr ⟨y, hyX, g, hg, rfl⟩, (hne y g hyx hg).2⟩
    · rintro ⟨rfl | ⟨y, hy, g, hg, rfl⟩, hec⟩
      · exact absurd rfl hec
      · by_cases hyx : y = x
        · subst hyx; rw [hf] at hg; cases hg; exact .inl hfd
        · exact .inr ⟨y, List.mem_filter.2 ⟨hy, decide_eq_true hyx⟩, g, (hv1 y hyx).trans hg, rfl⟩

/-- the contexts that run one after the other when the handles of `p` are returned in turn -/
def Chain (s : State) : List Var → List CtxId → Prop
  | [], [] => True
  | x :: p, d :: ds => Designates s x d ∧ Chain s p ds
  | _, _ => False

theorem Chain.mono {s s' : State} : ∀ {p : List Var} {ds : List CtxId}, Chain s p ds → (∀ y ∈ p, s'.val y = s.val y) → Chain s' p ds
  | [], [], _, _ => trivial
  | x :: p, d :: ds, h, hv => ⟨by obtain ⟨f, hf, he⟩ := h.1; exact ⟨f, (hv x List.mem_cons_self).trans hf, he⟩, h.2.mono fun y hy => hv y (List.mem_cons_of_mem _ hy)⟩

/-- every context of the chain but the last one ends: `c` returns the first handle of `p`, the context designated by it the second one, … -/
def drain (t : Tid) (b : Stacks) : List Var → CtxId → List CtxId → Var → List (Tid × Op)
  | x :: p, c, d :: ds, v => finishes t x (b c).2.1.length v ++ drain t b p d ds (v + 2)
  | _, _, _, _ => []

/-- **C95** A pool is wound up: the contexts of the pool end their functions one after the other, each returning the handle of the next one, in any order and to any number. All this goes through; the last context of
the chain runs; the others have ended, and the stack of each has been given back exactly once, in the order in which they ended; the contexts not in the chain are still there and wait where they waited. -/
theorem C95_pool_drain {s : State} {t : Tid} {X : List Var} {b : Stacks} {c : CtxId} (h : Reachable s) (hp : Pool s t X b c) (p : List Var) (ds : List CtxId) (hX : ∀ x ∈ p, x ∈ X) (hn : p.Nodup)
    (hch : Chain s p ds) (hend : ∀ e ∈ (c :: ds).dropLast, CanEnd s X b e) :
    ∃ s', run s (drain t b p c ds s.nextVar) = .ok s' ∧ Pool s' t (X.filter (· ∉ p)) b ((c :: ds).getLast (by simp)) ∧
      (∀ e, Member s' (X.filter (· ∉ p)) ((c :: ds).getLast (by simp)) e ↔ Member s X c e ∧ e ∉ (c :: ds).dropLast) ∧ (∀ e ∈ (c :: ds).dropLast, s'.status e = .freed) ∧
      s'.log = ((c :: ds).dropLast.map Event.dealloc).reverse ++ s.log ∧ (∀ e, e ∉ c :: ds → s'.frames e = s.frames e ∧ s'.status e = s.status e) := by
  induction p generalizing s c ds X with
  | nil =>
    cases ds with
    | nil =>
      have hX0 : X.filter (· ∉ ([] : List Var)) = X := by simp
      refine ⟨s, rfl, ?_, fun e => ?_, by simp, by simp, fun _ _ => ⟨rfl, rfl⟩⟩
      · rw [hX0]; exact hp
      · rw [hX0]; simp
    | cons d ds => exact hch.elim
  | cons x p ih =>
    cases ds with
    | nil => exact hch.elim
    | cons d ds =>
      have hxX := hX x List.mem_cons_self
      obtain ⟨hxp, hn'⟩ := List.nodup_cons.1 hn
      obtain ⟨hd, hch'⟩ := hch
      rw [List.dropLast_cons_cons] at hend
      have hce := hend c List.mem_cons_self
      obtain ⟨s1, e1, p1, m1, st1, l1, f1, -, -, v1, k1, cp1, nv1⟩ := C95_pool_exit h hp hce hxX hd
      have h1 : Reachable s1 := (steps_run e1).reachable h
      have hcd : d ≠ c := ((m1 d).1 (.inl rfl)).2
      have hXp : ∀ y ∈ p, y ∈ X.filter (· ≠ x) := fun y hy => List.mem_filter.2 ⟨hX y (List.mem_cons_of_mem _ hy), decide_eq_true fun hh => hxp (hh ▸ hy)⟩
      have hch1 : Chain s1 p ds := hch'.mono fun y hy => v1 y fun hh => hxp (hh ▸ hy)
      have hend1 : ∀ e ∈ (d :: ds).dropLast, CanEnd s1 (X.filter (· ≠ x)) b e := fun e he => by
        obtain ⟨q1, q2, q3, q4⟩ := hend e (List.mem_cons_of_mem _ he)
        refine ⟨q1, q2, fun y hy => ⟨fun hm => (q3 y hy).1 (List.mem_filter.1 hm).1, ?_⟩, by rw [cp1]; exact q4⟩
        rw [v1 y fun hh => (q3 y hy).1 (hh ▸ hxX)]; exact (q3 y hy).2
      obtain ⟨s', e2, p2, m2, st2, l2, f2⟩ := ih h1 p1 ds hXp hn' hch1 hend1
      have hfil : (X.filter (· ≠ x)).filter (· ∉ p) = X.filter (· ∉ x :: p) := by
        rw [List.filter_filter]; congr 1; funext y; simp [List.mem_cons, not_or, Bool.and_comm]
      rw [hfil] at p2 m2
      have hmem : ∀ e, Member s' (X.filter (· ∉ x :: p)) ((d :: ds).getLast (by simp)) e ↔ Member s X c e ∧ e ∉ c :: (d :: ds).dropLast := fun e => by
        rw [m2, m1, List.mem_cons, not_or, and_assoc]
      refine ⟨s', ?_, by simpa using p2, ?_, ?_, ?_, fun e he => ?_⟩
      · simp only [drain]; rw [run_append' e1, ← nv1]; exact e2
      · intro e; rw [List.dropLast_cons_cons]; simpa using hmem e
      · rw [List.dropLast_cons_cons]
        intro e he
        rcases List.mem_cons.1 he with rfl | he
        · by_cases hm : e ∈ d :: ds
          · rcases (List.mem_cons.1 hm) with rfl | hm
            · exact absurd rfl hcd
            · -- a context that has ended is designated by no handle
              exfalso
              have : ∀ (p : List Var) (ds : List CtxId), Chain s p ds → e ∈ ds → ∃ y, Designates s y e := by
                intro p
                induction p with
                | nil => intro ds hc hm; cases ds with
                  | nil => cases hm
                  | cons => exact hc.elim
                | cons y p ih' => intro ds hc hm; cases ds with
                  | nil => cases hm
                  | cons a ds =>
                    rcases List.mem_cons.1 hm with rfl | hm
                    · exact ⟨y, hc.1⟩
                    · exact ih' ds hc.2 hm
              obtain ⟨y, g, hg, hge⟩ := this p ds hch' hm
              exact ((facts (reachable_inv h) hp.1.1).2.2.2 y g hg).2.2 hge
          · rw [(f2 e hm).2]; exact st1
        · exact st2 e he
      · rw [l2, l1, List.dropLast_cons_cons]; simp
      · simp only [List.mem_cons, not_or] at he
        have a := f2 e (by simp only [List.mem_cons, not_or]; exact he.2)
        have b := f1 e he.1 he.2.1
        exact ⟨a.1.trans b.1, a.2.trans b.2⟩

/-- main has handed control to fiber 1 -/
def hDrain : List (Tid × Op) := hSched ++ half 0 2 2 6

theorem hDrain_pool : Pool (exec hDrain) 0 [2, 5] bSched 1 :=
  ⟨⟨by decide, by decide⟩, fun x hx => by
    rcases List.mem_cons.1 hx with rfl | hx
    · exact ⟨.inr (.inl ⟨0, by decide⟩), 0, ⟨⟨0, 5⟩, by decide, rfl⟩, by unfold InResume; decide⟩
    · cases List.mem_singleton.1 hx
      exact ⟨.inr (.inl ⟨0, by decide⟩), 2, ⟨⟨2, 2⟩, by decide, rfl⟩, by unfold InResume; decide⟩⟩

theorem hDrain_canEnd : CanEnd (exec hDrain) [2, 5] bSched 1 ∧ CanEnd (exec hDrain) [2, 5] bSched 2 :=
  ⟨⟨rfl, rfl, fun y hy => by cases List.mem_singleton.1 hy; exact ⟨by decide, by decide⟩, by decide⟩, ⟨rfl, rfl, fun y hy => by cases List.mem_singleton.1 hy; exact ⟨by decide, by decide⟩, by decide⟩⟩

/-- the hypotheses can be met: fiber 1 returns the handle of main -/
example : ∃ s', run (exec hDrain) (finishes 0 2 1 (exec hDrain).nextVar) = .ok s' ∧ Pool s' 0 [5] bSched 0 ∧ s'.status 1 = .freed := by
  obtain ⟨s', h1, h2, -, h3, -⟩ := C95_pool_exit (reachable_exec (by decide)) hDrain_pool hDrain_canEnd.1 (x := 2) (by simp) ⟨⟨0, 5⟩, by decide, rfl⟩
  exact ⟨s', h1, h2, h3⟩

/-- … fiber 1 returns the handle of fiber 2, fiber 2 that of main -/
example : ∃ s', run (exec hDrain) (drain 0 bSched [5, 2] 1 [2, 0] (exec hDrain).nextVar) = .ok s' ∧ Pool s' 0 [] bSched 0 ∧ s'.log = .dealloc 2 :: .dealloc 1 :: (exec hDrain).log := by
  obtain ⟨s', h1, h2, -, -, h3, -⟩ := C95_pool_drain (reachable_exec (by decide)) hDrain_pool [5, 2] [2, 0] (by simp) (by decide) ⟨⟨⟨2, 2⟩, by decide, rfl⟩, ⟨⟨0, 5⟩, by decide, rfl⟩, trivial⟩ (by
    intro e he
    rcases List.mem_cons.1 he with rfl | he
    · exact hDrain_canEnd.1
    · cases List.mem_singleton.1 he; exact hDrain_canEnd.2)
  exact ⟨s', h1, h2, h3⟩

end Verif.Fiber
