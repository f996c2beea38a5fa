import Verif.Link.Prims
import Verif.Asm.Many

/-!
# The machine routines implement the low-level calls the library makes (C80)

`Verif.Fiber.Model` works with abstract handles (context, number of the suspension) and an abstract switch.  `Verif.Asm.Many` is the machine with the routines of a port.  Here the two
are connected: a machine on which code calls the routines with the addresses of the handles does what the abstract switch does, and passes on the address of the abstract handle.
-/

namespace Verif.Link

open Verif.Asm Verif.Asm.Many
open Verif.Fiber (State Fctx Status Tid CtxId)

variable {A : Arch} {P : Port A}

/-- the address (`fcontext_t`) of each handle -/
abbrev Enc (A : Arch) := Fctx → A.W

/-- a handle gets an address -/
def Enc.set (E : Enc A) (f : Fctx) (w : A.W) : Enc A := fun x => if x = f then w else E x

/-- What the abstract state says about context `i`, which is not the one that takes the next step. -/
def CtxAbs (P : Port A) (e : Env A) (s : State) (E : Enc A) (i : Nat) : Option (Ctx A) → Prop
  | none => s.status i ≠ .suspended ∧ s.status i ≠ .raw ∧ ∀ t, s.cur t ≠ some i
  | some (.fresh σ) => s.status i = .raw ∧ E ⟨i, s.seq i⟩ = P.resM (exec e P.make σ).1 ∧ ∀ t, s.cur t ≠ some i
  | some (.susp σ) => s.status i = .suspended ∧ E ⟨i, s.seq i⟩ = P.fctx σ ∧ ∀ t, s.cur t ≠ some i
  | some (.par t _ _) => s.status i = .running t ∧ ∀ t', s.cur t' = some i ↔ t' = t

/-- The machine is in a state the abstract state describes: the same contexts run on the same threads, the same contexts are suspended or new, and the current handle of every
such context has as address the address of its data. -/
structure Abs (P : Port A) (e : Env A) (c : Cfg A) (s : State) (E : Enc A) : Prop where
  st : s.status c.cur = .running c.thr
  cur : ∀ t, s.cur t = some c.cur ↔ t = c.thr
  ctx : ∀ i, i ≠ c.cur → CtxAbs P e s E i (c.ctx i)

theorem Abs.core {e : Env A} {c : Cfg A} {s s' : State} {E : Enc A} (h : Abs P e c s E) (hc : Core s s') : Abs P e c s' E := by
  obtain ⟨h1, h2, h3⟩ := hc
  refine ⟨by rw [h2]; exact h.st, by rw [h1]; exact h.cur, fun i hi => ?_⟩
  have := h.ctx i hi
  revert this
  cases c.ctx i with
  | none => simp only [CtxAbs, h1, h2]; exact id
  | some x => cases x <;> simp only [CtxAbs, h1, h2, h3] <;> exact id

/-- The code of context `i`, switched to by `jump_fcontext`, continues with a `transfer_t` whose first member is `w`: if it was suspended, it returns from the call it was suspended
in; if it is new, its function is entered. -/
def Continues (P : Port A) (e : Env A) (c c' : Cfg A) (w : A.W) : Option (Ctx A) → Prop
  | some (.susp σ) => P.Returned σ c'.s (exec e P.jump c.s).2 ∧ P.resF σ c'.s = w ∧ P.resD σ c'.s = P.argD c.s
  | some (.fresh σ) => (P.enter e c.s).2 = P.argMFn σ ∧ P.inF c'.s = w ∧ P.inD c'.s = P.argD c.s
  | _ => False

variable {X : Extra P} {e : Env A}

/-- the abstract state after a switch -/
theorem switch_cases {s s' : State} {t f st b back} (h : s.switch t f st b = some (s', back)) :
    ∃ c, s.cur t = some c ∧ (s.status f.ctx = .suspended ∨ (b = true ∧ s.status f.ctx = .raw)) ∧ s.seq f.ctx = f.seq ∧ back = ⟨c, s.seq c + 1⟩ ∧
      s'.cur = Fiber.upd s.cur t (some f.ctx) ∧ s'.status = Fiber.upd (Fiber.upd s.status c st) f.ctx (.running t) ∧ s'.seq = Fiber.upd s.seq c (s.seq c + 1) := by
  unfold State.switch at h
  split at h
  · cases h
  · rename_i c hc
    split at h
    · rename_i hq
      injection h with h
      injection h with h1 h2
      exact ⟨c, hc, hq.1, hq.2, h2.symm, by rw [← h1], by rw [← h1], by rw [← h1]⟩
    · cases h

/-- the abstraction after a switch to context `i` -/
theorem abs_switch {c : Cfg A} {s s' : State} {E : Enc A} {i : Nat} (h : Abs P e c s E) (hi : ∀ t, s.cur t ≠ some i) (st : Status)
    (h1 : s'.cur = Fiber.upd s.cur c.thr (some i)) (h2 : s'.status = Fiber.upd (Fiber.upd s.status c.cur st) i (.running c.thr))
    (h3 : s'.seq = Fiber.upd s.seq c.cur (s.seq c.cur + 1)) (m : St A) (x : Option (Ctx A)) (w : A.W)
    (hx : (st = .suspended ∧ x = some (.susp c.s) ∧ w = P.fctx c.s) ∨ (st ≠ .suspended ∧ st ≠ .raw ∧ x = none)) :
    Abs P e { c with cur := i, s := m, ctx := fun k => if k = c.cur then x else if k = i then none else c.ctx k } s' (E.set ⟨c.cur, s.seq c.cur + 1⟩ w) := by
  have hcur : ∀ t, s'.cur t = some i ↔ t = c.thr := by
    intro t
    rw [h1]
    simp only [Fiber.upd]
    split
    · rename_i ht; simp [ht]
    · rename_i ht; simp [hi t, ht]
  refine ⟨by rw [h2]; simp [Fiber.upd], hcur, fun k hk => ?_⟩
  have hk : k ≠ i := hk
  show CtxAbs P e s' _ k (if k = c.cur then x else if k = i then none else c.ctx k)
  by_cases hkc : k = c.cur
  · subst hkc
    have hno : ∀ t, s'.cur t ≠ some c.cur := by
      intro t ht
      rw [h1] at ht
      simp only [Fiber.upd] at ht
      split at ht
      · injection ht with ht; exact hk ht.symm
      · rename_i hq; exact hq ((h.cur t).1 ht)
    rw [if_pos rfl]
    rcases hx with ⟨ha, hb, hw⟩ | ⟨ha, ha', hb⟩
    · subst hb
      refine ⟨by rw [h2]; simp [Fiber.upd, hk, ha], ?_, hno⟩
      rw [h3, hw]; simp [Fiber.upd, Enc.set]
    · subst hb
      exact ⟨by rw [h2]; simp [Fiber.upd, hk, ha], by rw [h2]; simp [Fiber.upd, hk, ha'], hno⟩
  · rw [if_neg hkc, if_neg hk]
    have := h.ctx k hkc
    have e1 : s'.status k = s.status k := by rw [h2]; simp [Fiber.upd, hk, hkc]
    have e2 : s'.seq k = s.seq k := by rw [h3]; simp [Fiber.upd, hkc]
    have e3 : ∀ t, s'.cur t = some k ↔ s.cur t = some k := by
      intro t
      rw [h1]
      simp only [Fiber.upd]
      split
      · rename_i ht
        constructor
        · intro h; injection h with h; exact absurd h.symm hk
        · intro h5; rw [ht, (h.cur c.thr).2 rfl] at h5; injection h5 with h5; exact absurd h5.symm hkc
      · exact Iff.rfl
    have e4 : E.set ⟨c.cur, s.seq c.cur + 1⟩ w ⟨k, s'.seq k⟩ = E ⟨k, s.seq k⟩ := by
      rw [e2]; simp [Enc.set, hkc]
    revert this
    cases c.ctx k with
    | none => simp only [CtxAbs, e1, ne_eq, e3]; exact id
    | some y => cases y <;> simp only [CtxAbs, e1, e4, ne_eq, e3] <;> exact id

/-- **C80**, `jump_fcontext`: if the switch to `f` is possible in the abstract state and the running code calls the routine with the address of `f`, the machine continues in the
context of `f`, which receives the address of the handle of the context that was left. -/
theorem sim_jump {g : Env A → St A → A.W} (hJ : P.JumpSpec) (hO : X.OntopS g) (hM : X.MakeS) {c : Cfg A} {s s' : State} {E : Enc A} {f back : Fctx} (hr : Many.Reachable X e c)
    (h : Abs P e c s E) (hs : s.jump c.thr f = some (s', back)) (ha : P.argF c.s = E f) (hc : CallOk X c) :
    ∃ c', Step X e c (.jump f.ctx) c' ∧ c'.thr = c.thr ∧ c'.cur = f.ctx ∧ Abs P e c' s' (E.set back (P.fctx c.s)) ∧ Continues P e c c' (P.fctx c.s) (c.ctx f.ctx) := by
  have hinv := inv_reachable hJ hO hM hr
  obtain ⟨k, k1, k2, k3, k4, k5, k6, k7⟩ := switch_cases hs
  have hk : k = c.cur := by
    have := (h.cur c.thr).2 rfl
    rw [k1] at this; injection this
  subst hk
  have hne : f.ctx ≠ c.cur := by
    intro hh
    rw [hh, h.st] at k2
    rcases k2 with h1 | h1
    · cases h1
    · cases h1.2
  have hx := h.ctx f.ctx hne
  have hf : f = ⟨f.ctx, s.seq f.ctx⟩ := by rw [k3]
  rw [k4]
  cases hcx : c.ctx f.ctx with
  | none => rw [hcx] at hx; rcases k2 with h1 | h1; exact absurd h1 hx.1; exact absurd h1.2 hx.2.1
  | some x =>
    rw [hcx] at hx
    cases x with
    | par t g q =>
      have h2 : s.status f.ctx = .running t := hx.1
      rw [h2] at k2
      rcases k2 with h1 | h1
      · cases h1
      · cases h1.2
    | susp σ =>
      obtain ⟨x1, x2, x3⟩ := hx
      have ha' : P.argF c.s = P.fctx σ := by rw [ha, hf]; exact x2
      refine ⟨_, .resume f.ctx σ hcx ha' hc, rfl, rfl, ?_, ?_⟩
      · exact abs_switch h x3 .suspended k5 k6 k7 _ _ _ (.inl ⟨rfl, rfl, rfl⟩)
      · obtain ⟨⟨m, m1, m2⟩, -⟩ := intact hinv hcx ha' hc
        obtain ⟨j1, j2, j3, -⟩ := hJ e σ c.s m m1 m2 ha'
        exact ⟨j1, j2, j3⟩
    | fresh σ =>
      obtain ⟨x1, x2, x3⟩ := hx
      have ha' : P.argF c.s = P.resM (exec e P.make σ).1 := by rw [ha, hf]; exact x2
      refine ⟨_, .start f.ctx σ hcx ha' hc, rfl, rfl, ?_, ?_⟩
      · exact abs_switch h x3 .suspended k5 k6 k7 _ _ _ (.inl ⟨rfl, rfl, rfl⟩)
      · obtain ⟨-, -, -, -, -, j1, j2, j3, -⟩ := started hM hinv hcx ha' hc
        exact ⟨j1, j2, j3⟩

/-- **C80**, `ontop_fcontext`: likewise; the function is entered in place of the call in which the target is suspended.  If the abstract state does not keep the context that is left
(`fiber_fcontext.hpp` 103), the machine may give it up. -/
theorem sim_ontop {g : Env A → St A → A.W} (hJ : P.JumpSpec) (hO : X.OntopS g) (hM : X.MakeS) {c : Cfg A} {s s' : State} {E : Enc A} {f back : Fctx} {fin : Bool}
    (hr : Many.Reachable X e c) (h : Abs P e c s E) (hs : s.ontopSwitch c.thr f (if fin then .terminated else .suspended) = some (s', back)) (ha : P.argF c.s = E f)
    (hc : CallOk X c) (ho : X.oot) :
    ∃ c' c'' σ, c.ctx f.ctx = some (.susp σ) ∧ Step X e c (.ontop f.ctx) c' ∧ c'.thr = c.thr ∧ c'.cur = f.ctx ∧
      (if fin then Step X e c' (.drop c.cur) c'' else c'' = c') ∧ Abs P e c'' s' (E.set back (P.fctx c.s)) ∧
      (exec e P.ontop c.s).2 = g e c.s ∧ P.CalledAs σ c'.s (P.fctx c.s) (P.argD c.s) := by
  have hinv := inv_reachable hJ hO hM hr
  obtain ⟨k, k1, k2, k3, k4, k5, k6, k7⟩ := switch_cases hs
  have hk : k = c.cur := by
    have := (h.cur c.thr).2 rfl
    rw [k1] at this; injection this
  subst hk
  have k2 : s.status f.ctx = .suspended := k2.resolve_right fun h => absurd h.1 (by simp)
  have hne : f.ctx ≠ c.cur := by
    intro hh
    rw [hh, h.st] at k2
    cases k2
  have hx := h.ctx f.ctx hne
  have hf : f = ⟨f.ctx, s.seq f.ctx⟩ := by rw [k3]
  rw [k4]
  cases hcx : c.ctx f.ctx with
  | none => rw [hcx] at hx; exact absurd k2 hx.1
  | some x =>
    rw [hcx] at hx
    cases x with
    | par t g q => rw [show s.status f.ctx = .running t from hx.1] at k2; cases k2
    | fresh σ => rw [show s.status f.ctx = .raw from hx.1] at k2; cases k2
    | susp σ =>
      obtain ⟨x1, x2, x3⟩ := hx
      have ha' : P.argF c.s = P.fctx σ := by rw [ha, hf]; exact x2
      obtain ⟨⟨m, m1, m2⟩, -⟩ := intact hinv hcx ha' hc
      obtain ⟨j1, j2, -⟩ := hO ho e σ c.s m m1 m2 ha'
      cases fin with
      | false =>
        refine ⟨_, _, σ, rfl, .ontop f.ctx σ hcx ha' hc ho, rfl, rfl, rfl, ?_, j1, j2⟩
        exact abs_switch h x3 .suspended k5 k6 k7 _ _ _ (.inl ⟨rfl, rfl, rfl⟩)
      | true =>
        refine ⟨_, _, σ, rfl, .ontop f.ctx σ hcx ha' hc ho, rfl, rfl, .drop c.cur, ?_, j1, j2⟩
        have := abs_switch (P := P) (e := e) h x3 .terminated k5 k6 k7 (exec e P.ontop c.s).1 none (P.fctx c.s) (.inr ⟨by simp, by simp, rfl⟩)
        refine ⟨this.st, this.cur, fun i hi => ?_⟩
        have h4 := this.ctx i hi
        by_cases hic : i = c.cur
        · simp only [hic, if_true] at h4 ⊢; exact h4
        · simp only [Many.switch, hic, if_false] at h4 ⊢; exact h4

/-- `make_fcontext`: the new context gets a handle whose address is the result. -/
theorem sim_make {c c' : Cfg A} {s s' : State} {E : Enc A} {n : Nat} (h : Abs P e c s E) (ha : s.status n = .absent)
    (hc : Core { s with status := Fiber.upd s.status n .raw, seq := Fiber.upd s.seq n 0 } s') (hs : Step X e c (.make n) c') :
    Abs P e c' s' (E.set ⟨n, 0⟩ (P.resM c'.s)) ∧ c'.thr = c.thr ∧ c'.cur = c.cur := by
  have hn : n ≠ c.cur := fun hh => by rw [hh, h.st] at ha; cases ha
  have hcx : c.ctx n = none := by
    have := h.ctx n hn
    revert this
    cases c.ctx n with
    | none => exact fun _ => rfl
    | some x => cases x <;> intro this <;> exact absurd (this.1.symm.trans ha) (by simp)
  have hno : ∀ t, s.cur t ≠ some n := by
    have := h.ctx n hn
    rw [hcx] at this
    exact this.2.2
  cases hs with
  | make _ R m1 m2 m3 m4 m5 =>
    refine ⟨Abs.core ?_ hc, rfl, rfl⟩
    refine ⟨?_, h.cur, fun i hi => ?_⟩
    · show Fiber.upd s.status n .raw c.cur = _
      simp [Fiber.upd, Ne.symm hn, h.st]
    · have hi : i ≠ c.cur := hi
      show CtxAbs P e _ _ i (if i = n then some (.fresh c.s) else c.ctx i)
      by_cases hin : i = n
      · subst hin
        rw [if_pos rfl]
        exact ⟨by simp [Fiber.upd], by simp [Enc.set, Fiber.upd], hno⟩
      · rw [if_neg hin]
        have := h.ctx i hi
        have e1 : Fiber.upd s.status n .raw i = s.status i := by simp [Fiber.upd, hin]
        have e2 : Fiber.upd s.seq n 0 i = s.seq i := by simp [Fiber.upd, hin]
        have e3 : ∀ q w, E.set ⟨n, 0⟩ w ⟨i, q⟩ = E ⟨i, q⟩ := by simp [Enc.set, hin]
        revert this
        cases c.ctx i with
        | none => simp only [CtxAbs, e1]; exact id
        | some y => cases y <;> simp only [CtxAbs, e1, e2, e3] <;> exact id

/-- own code of the running context -/
theorem sim_run {c c' : Cfg A} {s : State} {E : Enc A} (h : Abs P e c s E) (hs : Step X e c .run c') : Abs P e c' s E := by
  cases hs with
  | run s' _ => exact ⟨h.st, h.cur, h.ctx⟩

/-- another thread takes the next step -/
theorem sim_sched {c c' : Cfg A} {s : State} {E : Enc A} {i : Nat} (h : Abs P e c s E) (hcn : c.ctx c.cur = none) (hs : Step X e c (.sched i) c') : Abs P e c' s E := by
  cases hs with
  | sched _ t g q hx =>
    have hne : i ≠ c.cur := fun hh => by rw [hh, hcn] at hx; cases hx
    have hi := h.ctx i hne
    rw [hx] at hi
    refine ⟨hi.1, hi.2, fun k hk => ?_⟩
    have hk : k ≠ i := hk
    show CtxAbs P e s E k (if k = c.cur then some (.par c.thr c.s.gpr c.s.fpr) else if k = i then none else c.ctx k)
    by_cases hkc : k = c.cur
    · rw [if_pos hkc, hkc]; exact ⟨h.st, h.cur⟩
    · rw [if_neg hkc, if_neg hk]; exact h.ctx k hkc

/-- a thread starts -/
theorem sim_spawn {c c' : Cfg A} {s s' : State} {E : Enc A} {t n : Nat} {g : A.R → A.W} {q : (q : A.F) → BitVec (8 * A.fb q)} (h : Abs P e c s E) (ht : s.cur t = none)
    (ha : s.status n = .absent)
    (hc : Core { s with cur := Fiber.upd s.cur t (some n), status := Fiber.upd s.status n (.running t), seq := Fiber.upd s.seq n 0 } s') (hs : Step X e c (.spawn n) c')
    (hp : c'.ctx n = some (.par t g q)) : Abs P e c' s' E := by
  have hn : n ≠ c.cur := fun hh => by rw [hh, h.st] at ha; cases ha
  have hcx : c.ctx n = none := by
    have := h.ctx n hn
    revert this
    cases c.ctx n with
    | none => exact fun _ => rfl
    | some x => cases x <;> intro this <;> exact absurd (this.1.symm.trans ha) (by simp)
  have hno : ∀ t, s.cur t ≠ some n := by
    have := h.ctx n hn
    rw [hcx] at this
    exact this.2.2
  cases hs with
  | spawn _ t' R g' q' m1 m2 m3 =>
    have ht' : t' = t := by
      simp only [if_true, Option.some.injEq, Ctx.par.injEq] at hp
      exact hp.1
    subst ht'
    have htc : t' ≠ c.thr := fun hh => by rw [hh, (h.cur c.thr).2 rfl] at ht; cases ht
    refine Abs.core ?_ hc
    have e3 : ∀ i, i ≠ n → ∀ u, Fiber.upd s.cur t' (some n) u = some i ↔ s.cur u = some i := by
      intro i hi u
      simp only [Fiber.upd]
      split
      · rename_i hu
        rw [hu, ht]
        simp [Ne.symm hi]
      · exact Iff.rfl
    refine ⟨?_, fun u => ?_, fun i hi => ?_⟩
    · show Fiber.upd s.status n (.running t') c.cur = _
      simp [Fiber.upd, Ne.symm hn, h.st]
    · exact (e3 c.cur (Ne.symm hn) u).trans (h.cur u)
    · have hi : i ≠ c.cur := hi
      show CtxAbs P e _ _ i (if i = n then some (.par t' g' q') else c.ctx i)
      by_cases hin : i = n
      · subst hin
        rw [if_pos rfl]
        refine ⟨by simp [Fiber.upd], fun u => ?_⟩
        simp only [Fiber.upd]
        split
        · rename_i hu; simp [hu]
        · rename_i hu; simp [hu, hno u]
      · rw [if_neg hin]
        have := h.ctx i hi
        have e1 : Fiber.upd s.status n (.running t') i = s.status i := by simp [Fiber.upd, hin]
        have e2 : Fiber.upd s.seq n 0 i = s.seq i := by simp [Fiber.upd, hin]
        revert this
        cases c.ctx i with
        | none => simp only [CtxAbs, e1, ne_eq, e3 i hin]; exact id
        | some y => cases y <;> simp only [CtxAbs, e1, e2, ne_eq, e3 i hin] <;> exact id

/-- a thread ends: another one takes the next step, and the context of the one that ended is given up -/
theorem sim_exit {c c1 c2 : Cfg A} {s s' : State} {E : Enc A} {t i : Nat} (h : Abs P e c s E) (hcn : c.ctx c.cur = none) (ht : t = c.thr)
    (hc : Core { s with cur := Fiber.upd s.cur t none, status := Fiber.upd s.status c.cur .ended } s') (h1 : Step X e c (.sched i) c1) (h2 : Step X e c1 (.drop c.cur) c2) :
    Abs P e c2 s' E := by
  have hne : i ≠ c.cur := by
    cases h1 with
    | sched _ t g q hx => exact fun hh => by rw [hh, hcn] at hx; cases hx
  have h3 := sim_sched h hcn h1
  have hci : c1.cur = i := by cases h1; rfl
  have htt : c1.thr ≠ t := by
    intro hh
    have := (h3.cur c1.thr).2 rfl
    rw [hh, ht, (h.cur c.thr).2 rfl, hci] at this
    injection this with this
    exact hne this.symm
  have e3 : ∀ k, k ≠ c.cur → ∀ u, Fiber.upd s.cur t none u = some k ↔ s.cur u = some k := by
    intro k hk u
    simp only [Fiber.upd]
    split
    · rename_i hu
      rw [hu, ht, (h.cur c.thr).2 rfl]
      simp [Ne.symm hk]
    · exact Iff.rfl
  cases h2 with
  | drop =>
    refine Abs.core ?_ hc
    refine ⟨?_, fun u => ?_, fun k hk => ?_⟩
    · show Fiber.upd s.status c.cur .ended c1.cur = _
      rw [hci]; simp only [Fiber.upd, hne, if_false]; rw [← hci]; exact h3.st
    · rw [← hci] at hne; exact (e3 c1.cur hne u).trans (h3.cur u)
    · have hk : k ≠ c1.cur := hk
      show CtxAbs P e _ _ k (if k = c.cur then none else c1.ctx k)
      by_cases hkc : k = c.cur
      · rw [if_pos hkc, hkc]
        refine ⟨by simp [Fiber.upd], by simp [Fiber.upd], fun u hu => ?_⟩
        simp only [Fiber.upd] at hu
        split at hu
        · cases hu
        · rename_i hq; exact hq (((h.cur u).1 hu).trans ht.symm)
      · rw [if_neg hkc]
        have := h3.ctx k hk
        have e1 : Fiber.upd s.status c.cur .ended k = s.status k := by simp [Fiber.upd, hkc]
        revert this
        cases c1.ctx k with
        | none => simp only [CtxAbs, e1, ne_eq, e3 k hkc]; exact id
        | some y => cases y <;> simp only [CtxAbs, e1, ne_eq, e3 k hkc] <;> exact id

theorem sim_free {c : Cfg A} {s s' : State} {E : Enc A} {n : Nat} (h : Abs P e c s E) (ht : s.status n = .terminated)
    (hc : Core { s with status := Fiber.upd s.status n .freed } s') : Abs P e c s' E := by
  have hn : n ≠ c.cur := fun hh => by rw [hh, h.st] at ht; cases ht
  refine Abs.core (s := { s with status := Fiber.upd s.status n .freed }) ⟨?_, h.cur, fun i hi => ?_⟩ hc
  · show Fiber.upd s.status n .freed c.cur = _
    simp [Fiber.upd, Ne.symm hn, h.st]
  · have := h.ctx i hi
    by_cases hin : i = n
    · subst hin
      revert this
      cases c.ctx i with
      | none => exact fun h1 => ⟨by simp [Fiber.upd], by simp [Fiber.upd], h1.2.2⟩
      | some y => cases y <;> intro this <;> exact absurd (this.1.symm.trans ht) (by simp)
    · have e1 : Fiber.upd s.status n .freed i = s.status i := by simp [Fiber.upd, hin]
      revert this
      cases c.ctx i with
      | none => simp only [CtxAbs, e1]; exact id
      | some y => cases y <;> simp only [CtxAbs, e1] <;> exact id

end Verif.Link
