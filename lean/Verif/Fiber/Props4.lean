import Verif.Fiber.Props3

/-! # Values, construction, termination of library code: C16, C18, C55 -/

namespace Verif.Fiber
open State

/-! ## C16 -/

/-- Move construction (309-311), to the heap or to a local: the new object gets the context, the source is empty, every other object,
every call stack of other contexts, every status and the log are unchanged. -/
theorem C16_move_construct {s : State} {t : Tid} {c : CtxId} {k : UKind} {ls : List Var} {rest : List Frame} {x : Var}
    (h : Reachable s) (hu : UserCode s t c k ls rest) (ha : Handle s x) (op : Op) (ho : op = .moveHeap x ∨ op = .moveLocal x) :
    ∃ s' y, step s t op = .ok s' ∧ s.kind y = .dead ∧ Handle s' y ∧ s'.val y = s.val x ∧ s'.val x = none ∧
      (∀ z, z ≠ x → z ≠ y → s'.val z = s.val z) ∧ (∀ z, z ≠ y → s'.kind z = s.kind z) ∧ s'.status = s.status ∧ s'.log = s.log ∧
      (∀ d, d ≠ c → s'.frames d = s.frames d) ∧ s'.cur = s.cur := by
  have hi := reachable_inv h
  have hfr := hi.oi.fresh s.nextVar (Nat.le_refl _)
  have hxn : x ≠ s.nextVar := by
    intro hh; rw [← hh] at hfr; exact accessible_ne_dead (handle_accessible ha) hfr
  rcases ho with rfl | rfl
  · refine ⟨(s.setVal x none).newVar .heap (s.val x), s.nextVar, by simp [step, hu.1, hu.2, userStep, handle_accessible ha], hfr, .inl ?_, ?_⟩
    · simp [State.newVar]
    · simp [State.newVar, State.setVal, hxn]; grind
  · refine ⟨(((s.setVal x none).newVar (.loc c) (s.val x)).setFrames c (.user k (s.nextVar :: ls) .normal :: rest)), s.nextVar,
      by simp [step, hu.1, hu.2, userStep, handle_accessible ha], hfr, .inr (.inl ⟨c, ?_⟩), ?_⟩
    · simp [State.newVar, State.setFrames]
    · simp [State.newVar, State.setVal, State.setFrames, hxn]; grind

/-- Move assignment `y = std::move(x)` with `y` empty: `y` gets the context, `x` is empty, nothing else changes. -/
theorem C16_move_assign_empty {s : State} {t : Tid} {c : CtxId} {k : UKind} {ls : List Var} {rest : List Frame} {x y : Var}
    (hu : UserCode s t c k ls rest) (hx : Handle s x) (hy : Handle s y) (hne : y ≠ x) (he : s.val y = none) :
    step s t (.moveAssign y x) = .ok { s with val := upd (upd s.val y (s.val x)) x none } := by
  simp [step, hu.1, hu.2, userStep, handle_accessible hx, handle_accessible hy, hne, he]
  rfl

/-- Move assignment onto a non-empty `y`: when the destruction of the old context `v` of `y` starts, `y` already has the new context
and `x` is empty; the assigning context waits in the destructor until `v` is gone (`C09_dtor_waits`). -/
theorem C16_move_assign_full {s : State} {t : Tid} {c v : CtxId} {k : UKind} {ls : List Var} {rest : List Frame} {x y : Var}
    (h : Reachable s) (hu : UserCode s t c k ls rest) (hx : Handle s x) (hy : Handle s y) (hne : y ≠ x) (hd : Designates s y v) :
    ∃ s' p, step s t (.moveAssign y x) = .ok s' ∧ s'.val y = s.val x ∧ s'.val x = none ∧ s'.frames c = p ++ .dtor v :: s.frames c ∧
      (p = [] ∨ p = [.exiting v]) ∧ s'.log = s.log := by
  have hi := reachable_inv h
  obtain ⟨f, hv, rfl⟩ := hd
  have hnx : x ≠ s.nextVar := Nat.ne_of_lt (lt_nextVar hi (accessible_ne_dead (handle_accessible hx)))
  have hny : y ≠ s.nextVar := Nat.ne_of_lt (lt_nextVar hi (accessible_ne_dead (handle_accessible hy)))
  obtain ⟨h1, h2, h3, hval⟩ := facts hi hu.1
  obtain ⟨h4, h5, h6⟩ := hval y f hv
  have hst : step s t (.moveAssign y x) = ((s.setVal y (s.val x)).setVal x none).destroyFctx t c f := by
    simp [step, hu.1, hu.2, userStep, handle_accessible hx, handle_accessible hy, hne, hv]
  rw [hst, destroyFctx_eq (by exact hu.1) (by exact h4) (by exact (hi.vi.valid y f hv).2)]
  rcases (C19_no_raw_context h).2 y f.ctx ⟨f, hv, rfl⟩ with hf2 | ⟨k', l', rest', hf2⟩ | ⟨w, r, hf2⟩
  · simp only [State.raiseForced, sw, State.setFrames, State.setVal, upd_apply, h6, if_false, hf2]
    rw [finish_eq (c := f.ctx) (by simp) (by simp [Ne.symm h6]) (by simp)]
    refine ⟨_, [.exiting f.ctx], rfl, ?_⟩
    simp [fin, Ne.symm h6, hne]
  · simp only [InResume] at hf2
    simp only [State.raiseForced, sw, State.setFrames, State.setVal, upd_apply, h6, if_false, hf2]
    refine ⟨_, [], rfl, ?_⟩
    simp [State.newVar, Ne.symm h6, hne, hnx, hny]
  · exact absurd (dtorTop_iff.2 ⟨r, hf2⟩) (hi.vi.nonExc y f (accessible_ne_exc (handle_accessible hy)) hv w)

/-- Self move assignment changes nothing. -/
theorem C16_self_move {s : State} {t : Tid} {c : CtxId} {k : UKind} {ls : List Var} {rest : List Frame} {x : Var}
    (hu : UserCode s t c k ls rest) (hx : Handle s x) : step s t (.moveAssign x x) = .ok s := by
  simp [step, hu.1, hu.2, userStep, handle_accessible hx]

/-- `swap` exchanges the contexts and changes nothing else; swapping twice, and swapping an object with itself, change nothing. -/
theorem C16_swap {s : State} {t : Tid} {c : CtxId} {k : UKind} {ls : List Var} {rest : List Frame} {x y : Var}
    (hu : UserCode s t c k ls rest) (hx : Handle s x) (hy : Handle s y) :
    ∃ s', step s t (.swap x y) = .ok s' ∧ s'.val x = s.val y ∧ s'.val y = s.val x ∧ (∀ z, z ≠ x → z ≠ y → s'.val z = s.val z) ∧
      (s' = { s with val := s'.val }) ∧ (x = y → s' = s) ∧ step s' t (.swap x y) = .ok s := by
  have hax := handle_accessible hx
  have hay := handle_accessible hy
  have hst : step s t (.swap x y) = .ok { s with val := upd (upd s.val x (s.val y)) y (s.val x) } := by
    simp [step, hu.1, hu.2, userStep, hax, hay]; rfl
  refine ⟨_, hst, ?_, ?_, ?_, rfl, ?_, ?_⟩
  · simp; grind
  · simp
  · intro z h1 h2; simp [h1, h2]
  · rintro rfl
    have : upd (upd s.val x (s.val x)) x (s.val x) = s.val := by funext z; simp only [upd_apply]; grind
    rw [this]
  · have ha1 : ({ s with val := upd (upd s.val x (s.val y)) y (s.val x) } : State).accessible x = true := hax
    have ha2 : ({ s with val := upd (upd s.val x (s.val y)) y (s.val x) } : State).accessible y = true := hay
    simp only [step, hu.1, hu.2, userStep, ha1, ha2, and_self, if_true, Res.ok.injEq]
    have : upd (upd (upd (upd s.val x (s.val y)) y (s.val x)) x (upd (upd s.val x (s.val y)) y (s.val x) y)) y
        (upd (upd s.val x (s.val y)) y (s.val x) x) = s.val := by
      funext z; simp only [upd_apply]; grind
    simp only [State.setVal]
    rw [this]

/-- `operator bool` (349-351) and `operator!` (353-355) of an object with member `v` -/
def opBool (v : Option Fctx) : Bool := v.isSome
def opNot (v : Option Fctx) : Bool := v.isNone

/-- the pointer held by an object, `addr` giving the (non-null) machine address of a suspended context -/
def ptr (addr : Fctx → Nat) : Option Fctx → Nat
  | none => 0
  | some f => addr f + 1

/-- `operator<` (357-359) -/
def opLt (addr : Fctx → Nat) (v w : Option Fctx) : Bool := ptr addr v < ptr addr w

/-- `operator<<` (363-371), `digits` printing a pointer -/
def opPrint (addr : Fctx → Nat) (digits : Nat → String) : Option Fctx → String
  | some f => digits (ptr addr (some f))
  | none => "{not-a-context}"

/-- `operator bool` tells whether the object designates a context, `operator!` is its negation; `<` is a strict weak order for which
two objects are equivalent exactly if both are empty or both have the same address; empty objects are smallest; `<<` prints the marker
exactly for empty objects, provided no pointer prints as the marker. -/
theorem C16_observers (s : State) (x : Var) (addr : Fctx → Nat) (digits : Nat → String) (hd : ∀ n, digits n ≠ "{not-a-context}") :
    (opBool (s.val x) = true ↔ ∃ c, Designates s x c) ∧ (opNot (s.val x) = !opBool (s.val x)) ∧
    (∀ v, opLt addr v v = false) ∧ (∀ u v w, opLt addr u v = true → opLt addr v w = true → opLt addr u w = true) ∧
    (∀ u v w, opLt addr u v = false → opLt addr v w = false → opLt addr u w = false) ∧
    (∀ v, opLt addr none v = opBool v) ∧ (∀ v w, (opLt addr v w = false ∧ opLt addr w v = false) ↔ ptr addr v = ptr addr w) ∧
    (∀ v, opPrint addr digits v = "{not-a-context}" ↔ opBool v = false) := by
  refine ⟨?_, ?_, ?_, ?_, ?_, ?_, ?_, ?_⟩
  · cases hv : s.val x <;> simp [opBool, Designates, hv]
  · cases hv : s.val x <;> simp [opBool, opNot]
  · simp [opLt]
  · simp only [opLt, decide_eq_true_eq]; omega
  · simp only [opLt, decide_eq_false_iff_not]; omega
  · intro v; cases v <;> simp [opLt, opBool, ptr]
  · intro v w; simp only [opLt, decide_eq_false_iff_not]; omega
  · intro v; cases v <;> simp [opPrint, opBool, hd]

example : Reachable (exec h1) ∧ UserCode (exec h1) 0 0 .main [2, 0] [] ∧ Handle (exec h1) 2 ∧ Handle (exec h1) 0 ∧ (exec h1).val 0 = none ∧
    Designates (exec h1) 2 1 :=
  ⟨reachable_exec (by decide), ⟨by decide, by decide⟩, .inr (.inl ⟨0, by decide⟩), .inr (.inl ⟨0, by decide⟩), by decide, ⟨⟨1, 2⟩, by decide, rfl⟩⟩
example : ∀ n : Nat, (String.ofList (List.replicate n '7')) ≠ "{not-a-context}" := by
  intro n h
  have := congrArg String.toList h
  simp at this
  have h2 := congrArg (List.head? ·) this
  cases n <;> simp [List.replicate] at h2

/-! ## C18 -/

/-- If the stack allocator throws, the only effect is that the exception propagates in the creating function. -/
theorem C18_alloc_throws {s : State} {t : Tid} {c : CtxId} {k : UKind} {ls : List Var} {rest : List Frame} {xs : List Var} {n : Nat}
    (hu : UserCode s t c k ls rest) (ha : ∀ x ∈ xs, Handle s x) :
    ∃ s', step s t (.create xs (.allocThrows n)) = .ok s' ∧ s'.frames c = .user k ls (.unwinding (.user n)) :: rest ∧
      s' = { s with frames := s'.frames } ∧ ∀ d, d ≠ c → s'.frames d = s.frames d := by
  have : xs.all s.accessible = true := by simp only [List.all_eq_true]; exact fun x hx => handle_accessible (ha x hx)
  refine ⟨s.setFrames c (.user k ls (.unwinding (.user n)) :: rest), by simp [step, hu.1, hu.2, userStep, this], by simp [State.setFrames], rfl, ?_⟩
  intro d hd; simp [State.setFrames, hd]

/-- A successful construction: the creator continues with one new local object that designates a context which did not exist before,
is suspended and has not started; the listed captured objects are empty, everything else is as before. -/
theorem C18_create {s : State} {t : Tid} {c : CtxId} {k : UKind} {ls : List Var} {rest : List Frame} {xs : List Var}
    (h : Reachable s) (hu : UserCode s t c k ls rest) (ha : ∀ x ∈ xs, Handle s x) :
    ∃ s' p n, step s t (.create xs .success) = .ok s' ∧ UserCode s' t c k (p :: ls) rest ∧ s.kind p = .dead ∧ Designates s' p n ∧
      s.status n = .absent ∧ ¬ Created s n ∧ Suspended s' n ∧ NotStarted s' n ∧ s'.log = .alloc n :: s.log ∧
      (∀ d, d ≠ c → d ≠ n → s'.frames d = s.frames d ∧ s'.status d = s.status d) ∧ s'.status c = s.status c ∧ s'.cur = s.cur ∧
      (∀ y, s.kind y ≠ .dead → s'.kind y = s.kind y ∧ s'.val y = if y ∈ xs then none else s.val y) := by
  have hi := reachable_inv h
  obtain ⟨s2, h2, hst⟩ := create_eq hi hu ha
  have hs := capture_same ({ s with nextCtx := s.nextCtx + 1 }.addLog (.alloc s.nextCtx)) s.nextCtx xs
  have hcv := capture_val ({ s with nextCtx := s.nextCtx + 1 }.addLog (.alloc s.nextCtx)) s.nextCtx xs
    (fun x hx => lt_nextVar hi (accessible_ne_dead (handle_accessible (ha x hx))))
  rw [← h2] at hs hcv
  simp only [State.addLog] at hs hcv
  obtain ⟨e1, e2, e3, e4, e5, e6, e7, e8, e9⟩ := hs
  obtain ⟨q1, q2, q3⟩ := hcv
  have habs := (hi.ci.absent s.nextCtx).2 (Nat.le_refl _)
  have hcn : c ≠ s.nextCtx := by
    intro hh; have := (facts hi hu.1).1; rw [hh, habs] at this; simp at this
  refine ⟨_, s2.nextVar, s.nextCtx, hst, ⟨by simp [e1, hu.1], by simp⟩, ?_, ⟨⟨s.nextCtx, 1⟩, by simp, rfl⟩, habs,
    ((reachable_linv h).absentA _ habs).1, by simp [Suspended], by simp [NotStarted, Ne.symm hcn], ?_, ?_, ?_, by simp [e1], ?_⟩
  · exact hi.oi.fresh _ q1
  · simp [e9]
  · intro d h1 h2; simp [h1, h2, e2, e4]
  · simp [hcn, e2]
  · intro y hy
    have hlt := lt_nextVar hi hy
    have hne : y ≠ s2.nextVar := by intro hh; rw [hh] at hlt; exact absurd hlt (Nat.not_lt.2 q1)
    simp only [upd_apply, hne, if_false]
    exact ⟨q3 y hlt, q2 y hlt⟩

example : Reachable init ∧ UserCode init 0 0 .main [] [] := ⟨.init, by decide, by decide⟩
example : Reachable (exec h1) ∧ UserCode (exec h1) 0 0 .main [2, 0] [] ∧ Handle (exec h1) 2 :=
  ⟨reachable_exec (by decide), ⟨by decide, by decide⟩, .inr (.inl ⟨0, by decide⟩)⟩

/-! ## C55: unwinding and release always come to an end -/

/-- weights for the termination argument -/
def fw : Frame → Nat
  | .user _ ls _ => 3 + 4 * ls.length
  | _ => 1

def fws : List Frame → Nat
  | [] => 0
  | f :: fs => fw f + fws fs

@[simp] theorem fws_nil : fws [] = 0 := rfl
@[simp] theorem fws_cons (f fs) : fws (f :: fs) = fw f + fws fs := rfl
@[simp] theorem fw_user (k ls m) : fw (.user k ls m) = 3 + 4 * ls.length := rfl
@[simp] theorem fw_resume : fw .resume = 1 := rfl
@[simp] theorem fw_dtor (v) : fw (.dtor v) = 1 := rfl
@[simp] theorem fw_exiting (v) : fw (.exiting v) = 1 := rfl
@[simp] theorem fw_entryJump : fw .entryJump = 1 := rfl
@[simp] theorem fw_entryRun : fw .entryRun = 1 := rfl
@[simp] theorem fw_exitJump : fw .exitJump = 1 := rfl

def sumTo : Nat → (Nat → Nat) → Nat
  | 0, _ => 0
  | n + 1, f => sumTo n f + f n

theorem sumTo_congr {n f g} (h : ∀ i, i < n → f i = g i) : sumTo n f = sumTo n g := by
  induction n with
  | zero => rfl
  | succ n ih =>
    simp only [sumTo]
    rw [ih (fun i hi => h i (by omega)), h n (by omega)]

theorem sumTo_upd {n : Nat} {f g : Nat → Nat} {c : Nat} (hc : c < n) (h : ∀ i, i ≠ c → g i = f i) : sumTo n g + f c = sumTo n f + g c := by
  induction n with
  | zero => omega
  | succ n ih =>
    simp only [sumTo]
    by_cases hcn : c = n
    · subst hcn
      have : sumTo c g = sumTo c f := sumTo_congr (fun i hi => h i (by omega))
      omega
    · have := ih (by omega)
      have := h n (by omega)
      omega

/-- total work left for threads that only unwind and release -/
def wk (n : Nat) (fr : CtxId → List Frame) (cp : CtxId → List Var) : Nat := sumTo n (fun c => fws (fr c) + 4 * (cp c).length)

theorem upd_same {α β : Type} [DecidableEq α] (f : α → β) (a : α) (b : β) : upd f a b a = b := by simp

def work (s : State) : Nat := wk s.nextCtx s.frames s.caps

theorem wk_fr {n fr cp c} (fs) (hc : c < n) : wk n (upd fr c fs) cp + fws (fr c) = wk n fr cp + fws fs := by
  have := sumTo_upd (f := fun c => fws (fr c) + 4 * (cp c).length) (g := fun d => fws (upd fr c fs d) + 4 * (cp d).length) hc
    (fun i hi => by simp [hi])
  simp only [wk, upd_same] at *
  omega

theorem wk_cp {n fr cp c} (xs) (hc : c < n) : wk n fr (upd cp c xs) + 4 * (cp c).length = wk n fr cp + 4 * xs.length := by
  have := sumTo_upd (f := fun c => fws (fr c) + 4 * (cp c).length) (g := fun d => fws (fr d) + 4 * (upd cp c xs d).length) hc
    (fun i hi => by simp [hi])
  simp only [wk, upd_same] at *
  omega

theorem lt_nextCtx {s : State} (hi : Inv s) {c} (h : s.status c ≠ .absent) : c < s.nextCtx := by
  have := hi.ci.absent c
  grind

/-- the work of a finishing context -/
theorem wk_fin {n fr cp c d} (hc : c < n) (hd : d < n) (hcd : d ≠ c) :
    wk n (upd (upd fr c [.exitJump]) d (.exiting c :: upd fr c [.exitJump] d)) cp + fws (fr c) = wk n fr cp + 2 := by
  have h1 := wk_fr (cp := cp) (fr := fr) [.exitJump] hc
  have h2 := wk_fr (cp := cp) (fr := upd fr c [.exitJump]) (.exiting c :: upd fr c [.exitJump] d) hd
  simp only [fws_cons, fws_nil, fw_exitJump, fw_exiting] at h1 h2
  omega

theorem wk_destroy {s s' : State} {t c f} (hc : c < s.nextCtx) (hd : f.ctx < s.nextCtx) (hcd : f.ctx ≠ c) (h : Dst s t c f s') :
    work s' ≤ work s + 2 := by
  obtain ⟨h⟩ := h
  have h1 := wk_fr (cp := s.caps) (fr := s.frames) (.dtor f.ctx :: s.frames c) hc
  simp only [fws_cons, fw_dtor] at h1
  cases h with
  | entry hf =>
    have h2 := wk_fin (cp := s.caps) (fr := upd s.frames c (.dtor f.ctx :: s.frames c)) hd hc (Ne.symm hcd)
    have hf' : upd s.frames c (.dtor f.ctx :: s.frames c) f.ctx = .entryJump :: _ := hf
    rw [hf'] at h2
    simp only [fws_cons, fw_entryJump] at h2
    simp only [work, fin, sw, State.setFrames]
    omega
  | resume hf =>
    rename_i k ls m rest
    have h2 := wk_fr (cp := s.caps) (fr := upd s.frames c (.dtor f.ctx :: s.frames c)) (.user k ls (.unwinding (.forced s.nextVar)) :: rest) hd
    have hf' : upd s.frames c (.dtor f.ctx :: s.frames c) f.ctx = .resume :: .user k ls m :: rest := hf
    rw [hf'] at h2
    simp only [fws_cons, fw_resume, fw_user] at h2
    simp only [work, sw, State.setFrames]
    omega

/-- Every tick of a thread that is not in user code reduces the work, or brings the thread to user code, or ends the thread. -/
theorem tick_work {s s' : State} {t : Tid} (h : Reachable s) (hs : step s t .tick = .ok s') :
    work s' < work s ∨ s'.cur t = none ∨ ∃ c k ls rest, UserCode s' t c k ls rest := by
  have hi := reachable_inv h
  obtain ⟨c, hc, he⟩ := step_eff hi hs
  obtain ⟨h1, h2, h3, hval⟩ := facts hi hc
  have hcn : c < s.nextCtx := lt_nextCtx hi (by simp [h1])
  have hvn : ∀ x f, s.val x = some f → f.ctx < s.nextCtx := fun x f hx => lt_nextCtx hi (by simp [(hval x f hx).1])
  have hfr := fun fs => wk_fr (cp := s.caps) (fr := s.frames) fs hcn
  clear hs
  cases he with
  | destroy hp hd =>
    rename_i s1 f
    left
    cases hp with
    | tick hf hm hv =>
      rename_i k ls m rest x
      have hw := wk_destroy (by exact hcn) (by exact hvn _ f hv) (hval _ f hv).2.2 hd
      have h4 := hfr (.user k ls m :: rest)
      rw [hf] at h4
      simp only [fws_cons, fw_user, List.length_cons] at h4
      refine Nat.lt_of_le_of_lt hw ?_
      simp only [work, State.setFrames, State.kill]
      omega
    | exit hf hcp hv =>
      rename_i n rest x xs
      have hw := wk_destroy (by exact hcn) (by exact hvn _ f hv) (hval _ f hv).2.2 hd
      have hnn : n < s.nextCtx := lt_nextCtx hi (by rw [hi.ci.exitT n c (by rw [hf]; simp [exits])]; simp)
      have h4 := wk_cp (cp := s.caps) (fr := s.frames) xs hnn
      rw [hcp] at h4
      simp only [List.length_cons] at h4
      refine Nat.lt_of_le_of_lt hw ?_
      simp only [work, State.kill]
      omega
  | tickLocal hf hm hv =>
    rename_i k ls m rest x
    left
    have h4 := hfr (.user k ls m :: rest)
    rw [hf] at h4
    simp only [fws_cons, fw_user, List.length_cons] at h4
    simp only [work, State.setFrames, State.kill]
    omega
  | exitCap hf hcp hv =>
    rename_i n rest x xs
    left
    have hnn : n < s.nextCtx := lt_nextCtx hi (by rw [hi.ci.exitT n c (by rw [hf]; simp [exits])]; simp)
    have h4 := wk_cp (cp := s.caps) (fr := s.frames) xs hnn
    rw [hcp] at h4
    simp only [List.length_cons] at h4
    simp only [work, State.kill]
    omega
  | propCall hf =>
    rename_i e k' ls' m' rest
    left
    have h4 := hfr (.user k' ls' (.unwinding e) :: rest)
    rw [hf] at h4
    simp only [fws_cons, fw_user, List.length_nil] at h4
    simp only [work, State.setFrames]
    omega
  | propFn hf hv =>
    rename_i x f rest
    left
    have h4 := wk_fin (cp := s.caps) (fr := s.frames) hcn (hvn x f hv) (Ne.symm (hval x f hv).2.2.symm)
    rw [hf] at h4
    simp only [fws_cons, fw_user, List.length_nil] at h4
    simp only [work, fin, State.kill, State.setFrames, hf] at *
    omega
  | leaveFn hf hv =>
    rename_i x f rest
    left
    have h4 := wk_fin (cp := s.caps) (fr := s.frames) hcn (hvn x f hv) (Ne.symm (hval x f hv).2.2.symm)
    rw [hf] at h4
    simp only [fws_cons, fw_user, List.length_nil] at h4
    simp only [work, fin, State.kill, State.setFrames, hf] at *
    omega
  | propOntopUser hf =>
    rename_i i n k ls m rest
    left
    have h4 := hfr (.user k ls (.unwinding (.user n)) :: rest)
    rw [hf] at h4
    simp only [fws_cons, fw_user, fw_resume, List.length_nil] at h4
    simp only [work, State.setFrames]
    omega
  | propOntopForced hf hv hr =>
    rename_i i x f rest
    left
    have h5 := hfr rest
    rw [hf] at h5
    simp only [fws_cons, fw_user, List.length_nil] at h5
    cases hr with
    | entry hf2 =>
      have h4 := wk_fin (cp := s.caps) (fr := upd s.frames c rest) hcn (hvn x f hv) (Ne.symm (hval x f hv).2.2.symm)
      have hf' : upd s.frames c rest c = .entryJump :: _ := hf2
      rw [hf'] at h4
      simp only [fws_cons, fw_entryJump] at h4
      simp only [work, fin, State.kill, State.setFrames]
      omega
    | resume hf2 =>
      rename_i k ls m rest2
      have h4 := wk_fr (cp := s.caps) (fr := upd s.frames c rest) (.user k ls (.unwinding (.forced s.nextVar)) :: rest2) hcn
      have hf' : upd s.frames c rest c = .resume :: .user k ls m :: rest2 := hf2
      rw [hf'] at h4
      simp only [fws_cons, fw_resume, fw_user] at h4
      simp only [work, State.kill, State.setFrames]
      omega
  | leaveMain hf => exact .inr (.inl (by simp))
  | leaveCall hf hk =>
    rename_i k rest
    left
    have h4 := hfr rest
    rw [hf] at h4
    simp only [fws_cons, fw_user, List.length_nil] at h4
    simp only [work, State.setFrames]
    omega
  | leaveOntop hf hd =>
    right; right
    cases hd with
    | entry hf2 => exact ⟨c, .fn, _, _, by simpa [State.kill, State.setFrames] using hc, by simp; exact ⟨rfl, rfl⟩⟩
    | resume hf2 =>
      simp [State.kill, State.setFrames] at hf2
      rw [hf, hf2] at h2
      obtain rfl := wf_resume h2.2
      exact ⟨c, _, _, _, by simpa [State.kill, State.setFrames] using hc, by simp; exact ⟨⟨rfl, rfl⟩, rfl⟩⟩
    | dtor hf2 =>
      simp [State.kill, State.setFrames] at hf2
      rw [hf, hf2] at h2
      simp [WF, Adj] at h2
  | exitDone hf hcp hst hd =>
    rename_i n rest
    cases hd with
    | entry hf2 => exact .inr (.inr ⟨c, .fn, _, _, by simpa using hc, by simp; exact ⟨rfl, rfl⟩⟩)
    | resume hf2 =>
      simp at hf2
      rw [hf, hf2] at h2
      obtain rfl := wf_resume h2.2
      exact .inr (.inr ⟨c, _, _, _, by simpa using hc, by simp; exact ⟨⟨rfl, rfl⟩, rfl⟩⟩)
    | dtor hf2 =>
      left
      rename_i w rest'
      simp at hf2
      have hnn : n < s.nextCtx := lt_nextCtx hi (by simp [hst])
      have hnc : n ≠ c := by rintro rfl; rw [h1] at hst; simp at hst
      have h4 := wk_fr (cp := s.caps) (fr := s.frames) [] hnn
      have h5 := wk_fr (cp := s.caps) (fr := upd s.frames n []) rest hcn
      have h6 := wk_fr (cp := s.caps) (fr := upd (upd s.frames n []) c rest) rest' hcn
      have e1 : upd s.frames n [] c = .exiting n :: rest := by simp [Ne.symm hnc, hf]
      rw [e1] at h5
      rw [upd_same, hf2] at h6
      rw [hf2] at h5
      simp only [fws_cons, fws_nil, fw_dtor, fw_exiting] at h4 h5 h6
      simp only [work]
      rw [hf2] at *
      omega

/-- **C55**: from every reachable state, if thread `t` only continues library code and unwinding (no user code interferes), then after
finitely many steps it is back in user code, or has ended, or the program was terminated or an assertion failed as in C13/C14.
So destruction, exit and unwinding never loop, however deeply fibers own each other. -/
theorem C55_terminates {s : State} (h : Reachable s) (t : Tid) :
    ∃ n, run s (List.replicate n (t, .tick)) = .terminate ∨ run s (List.replicate n (t, .tick)) = .assertion ∨
      ∃ s', run s (List.replicate n (t, .tick)) = .ok s' ∧ (s'.cur t = none ∨ ∃ c k ls rest, UserCode s' t c k ls rest) := by
  have key : ∀ w s, work s ≤ w → Reachable s → ∃ n, run s (List.replicate n (t, .tick)) = .terminate ∨
      run s (List.replicate n (t, .tick)) = .assertion ∨
      ∃ s', run s (List.replicate n (t, .tick)) = .ok s' ∧ (s'.cur t = none ∨ ∃ c k ls rest, UserCode s' t c k ls rest) := by
    intro w
    induction w with
    | zero =>
      intro s hw hr
      cases hst : step s t .tick with
      | ok s' =>
        refine ⟨1, .inr (.inr ⟨s', by simp [run, hst], ?_⟩)⟩
        rcases tick_work hr hst with h1 | h1
        · omega
        · exact h1
      | terminate => exact ⟨1, .inl (by simp [run, hst])⟩
      | assertion => exact ⟨1, .inr (.inl (by simp [run, hst]))⟩
      | ub => exact absurd hst (C02_no_ub hr t .tick)
      | rejected => exact ⟨0, .inr (.inr ⟨s, rfl, (step_class hr).2.2 rfl hst⟩)⟩
    | succ w ih =>
      intro s hw hr
      cases hst : step s t .tick with
      | ok s' =>
        rcases tick_work hr hst with h1 | h1
        · obtain ⟨n, hn⟩ := ih s' (by omega) (.step hr hst)
          refine ⟨n + 1, ?_⟩
          simp only [List.replicate_succ, run, hst]
          exact hn
        · exact ⟨1, .inr (.inr ⟨s', by simp [run, hst], h1⟩)⟩
      | terminate => exact ⟨1, .inl (by simp [run, hst])⟩
      | assertion => exact ⟨1, .inr (.inl (by simp [run, hst]))⟩
      | ub => exact absurd hst (C02_no_ub hr t .tick)
      | rejected => exact ⟨0, .inr (.inr ⟨s, rfl, (step_class hr).2.2 rfl hst⟩)⟩
  exact key (work s) s (Nat.le_refl _) h

example : Reachable (exec h2) ∧ (exec h2).cur 0 = some 1 := ⟨reachable_exec (by decide), by decide⟩

end Verif.Fiber
