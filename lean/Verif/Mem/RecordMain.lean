import Verif.Mem.RecordInv

/-! # C89: stack allocators and the records of contexts, theorems -/

namespace Verif.Mem.Record
open St

/-- the storage a stack belongs to, from its allocation until the function that gives it back is left -/
def storage : Phase → Option Pool
  | .held p _ | .constructing p _ _ | .initialising p _ _ _ | .failing p _ _ _ | .failing2 p _ _ | .complete p _ | .dying p _ _ | .giving p _ | .leaving p _ => some p
  | .absent | .returned _ => none

theorem fault_needs {s : St} {p : Pool} (h : s.fault = false) (hp : s.pool p = .alive) : (s.needs p).fault = false := by
  simp [needs, h, hp]

theorem fault_copy {s : St} {o i oi v} (hM : MInv s) (h : s.fault = false) (hi : s.obj i = .live oi v) : (s.copyObj o i).fault = false := by
  cases v with
  | none => simp only [copyObj, val_live hi, addRef]; exact h
  | some q => simp only [copyObj, val_live hi, addRef]; exact fault_needs h (hM.live hi)

theorem fault_drop {s : St} {i oi v} (hM : MInv s) (h : s.fault = false) (hi : s.obj i = .live oi v) : (s.dropObj i).fault = false := by
  cases v with
  | none => simp only [dropObj, val_live hi, release]; exact h
  | some q =>
    simp only [dropObj, val_live hi, release]
    split <;> exact fault_needs h (hM.live hi)

theorem fault_dealloc {s : St} {i oi k p} (hM : MInv s) (h : s.fault = false) (hi : s.obj i = .live oi (some p)) : (s.deallocate i k p).fault = false := by
  simp only [deallocate, val_live hi]
  simp [fault_needs h (hM.live hi)]

/-- what `ReachOk` adds to the invariant -/
structure OkInv (s : St) : Prop where
  fault : s.fault = false
  f1 : ∀ k p u r, s.stk k ≠ .failing p u true r
  f2 : ∀ k p u, s.stk k ≠ .failing2 p u true

theorem f2_upd {s s' : St} {k : Nat} {ph : Phase} (h : OkInv s) (hs : s'.stk = upd s.stk k ph) (hph : ∀ p u, ph ≠ .failing2 p u true) : ∀ k p u, s'.stk k ≠ .failing2 p u true := by
  intro k' p u; rw [hs, upd_apply]; split
  · exact hph p u
  · exact h.f2 k' p u

theorem ok_step {s s' : St} (hI : Inv s) (h : OkInv s) (hs : Step s s') (hf : ∀ k p u r, s'.stk k ≠ .failing p u true r) : OkInv s' := by
  have hM := hI.m
  have hP := hI.p
  refine ⟨?_, hf, ?_⟩
  · cases hs with
    | make => exact h.fault
    | copy u v hu _ => exact fault_copy hM h.fault hu
    | move u v hu _ => exact h.fault
    | drop u v hu _ => exact fault_drop hM h.fault hu
    | hold u p hu _ => exact fault_needs h.fault (hM.live hu)
    | unhold k p u hk =>
      have := hP.ph k; rw [hk] at this
      exact fault_dealloc hM h.fault this
    | create1 u p rv hu _ => exact fault_needs h.fault (hM.live hu)
    | create2 => exact h.fault
    | construct k p u rv hk =>
      have hu := hP.ph k; rw [hk] at hu
      cases rv with
      | false => exact fault_needs (fault_copy hM h.fault hu) (by rw [if_neg (by simp), copyObj_pool]; exact hM.live hu)
      | true => exact fault_needs (s := s.moveObj (.member k) u .user) h.fault (hM.live hu)
    | created k p u rv r hk =>
      have hu := hP.ph k; rw [hk] at hu
      exact fault_needs h.fault (hM.live hu.1)
    | getcontextFails k p u rv r hk =>
      have hu := hP.ph k; rw [hk] at hu
      exact fault_needs h.fault (hM.live hu.1)
    | failed k p u rv r hk =>
      have hu := hP.ph k; rw [hk] at hu
      exact fault_drop (s := s.needs p) (hM.congr rfl rfl rfl rfl rfl) (fault_needs h.fault (hM.live hu.1)) hu.1
    | failed2 k p u rv hk =>
      have hu := hP.ph k; rw [hk] at hu
      cases rv with
      | true => exact (h.f2 _ _ _ hk).elim
      | false => exact fault_dealloc hM h.fault hu
    | destroy k p r hk =>
      have hu := hP.ph k; rw [hk] at hu
      exact fault_needs h.fault (hM.live hu)
    | destroyRecord k p r l hk =>
      have hu := hP.ph k; rw [hk] at hu
      exact fault_drop (s := s.needs p) (hM.congr rfl rfl rfl rfl rfl) (fault_needs h.fault (hM.live hu.2)) hu.1
    | give k p l hk =>
      have hu := hP.ph k; rw [hk] at hu
      exact fault_dealloc hM h.fault hu
    | leave k p l hk =>
      have hu := hP.ph k; rw [hk] at hu
      exact fault_drop hM h.fault hu
  · cases hs with
    | make => exact h.f2
    | copy => simpa using h.f2
    | move => simpa using h.f2
    | drop => simpa using h.f2
    | hold => exact f2_upd h rfl (by simp)
    | unhold => exact f2_upd (ph := .returned _) h rfl (by simp)
    | create1 => exact f2_upd h rfl (by simp)
    | create2 => exact f2_upd h rfl (by simp)
    | construct => exact f2_upd (ph := .initialising _ _ _ _) h rfl (by simp)
    | created => exact f2_upd h rfl (by simp)
    | getcontextFails => exact f2_upd h rfl (by simp)
    | failed k p u rv r hk =>
      cases rv with
      | true => exact (h.f1 _ _ _ _ hk).elim
      | false => exact f2_upd (ph := .failing2 p u false) h rfl (by simp)
    | failed2 => exact f2_upd (ph := .returned _) h rfl (by simp)
    | destroy => exact f2_upd h rfl (by simp)
    | destroyRecord => exact f2_upd (ph := .giving _ _) h rfl (by simp)
    | give => exact f2_upd (ph := .leaving _ _) h rfl (by simp)
    | leave => exact f2_upd (ph := .returned _) h rfl (by simp)

theorem reachOk_inv {s : St} (h : ReachOk s) : OkInv s := by
  induction h with
  | init => exact ⟨rfl, by intro k p u r; simp [init], by intro k p u; simp [init]⟩
  | step hr hs hf ih => exact ok_step (reach_inv hr.reach) ih hs hf

/-- **C89**: whatever copies, moves and destructions of allocators, creations and destructions of contexts are interleaved, no null or dangling storage pointer is used, every stack is
given to the storage it comes from, and no record on a stack whose storage is gone is accessed -- unless `getcontext` fails in a creation that was given its allocator as rvalue. -/
theorem C89_no_fault {s : St} (h : ReachOk s) : s.fault = false := (reachOk_inv h).fault

/-- **C89**: a storage is alive exactly as long as user code has an allocator object for it or one of its stacks has not been given back. -/
theorem C89_alive {s : St} (h : ReachOk s) (p : Pool) :
    s.pool p = .alive ↔ (∃ u, s.obj u = .live .user (some p)) ∨ (∃ k, storage (s.stk k) = some p) := by
  have hI := reach_inv h.reach
  constructor
  · intro hp
    have h1 := (hI.m.alive p).1 hp
    rw [hI.m.cnt] at h1
    obtain ⟨i, _, o, ho⟩ := (cnt_pos _).1 h1
    cases o with
    | user => exact .inl ⟨i, ho⟩
    | member k =>
      have h2 := hI.p.mem k i _ ho
      have h3 := hI.p.ph k
      refine .inr ⟨k, ?_⟩
      cases hk : s.stk k <;> rw [hk] at h2 h3 <;> cases h2
      · have := h3.1.symm.trans ho; cases this; rfl
      · have := h3.1.symm.trans ho; cases this; rfl
      · have := h3.symm.trans ho; cases this; rfl
      · have := h3.1.symm.trans ho; cases this
    | localOf k =>
      have h2 := hI.p.loc k i _ ho
      have h3 := hI.p.ph k
      refine .inr ⟨k, ?_⟩
      cases hk : s.stk k <;> rw [hk] at h2 h3 <;> cases h2
      · have := h3.2.symm.trans ho; cases this; rfl
      · have := h3.symm.trans ho; cases this; rfl
      · have := h3.symm.trans ho; cases this; rfl
  · rintro (⟨u, hu⟩ | ⟨k, hk⟩)
    · exact hI.m.live hu
    · have h3 := hI.p.ph k
      have h4 := reachOk_inv h
      cases hs : s.stk k with
      | absent => rw [hs] at hk; cases hk
      | returned => rw [hs] at hk; cases hk
      | failing2 q u rv =>
        rw [hs] at hk h3; cases hk
        cases rv with
        | true => exact (h4.f2 _ _ _ hs).elim
        | false => exact hI.m.live h3
      | held => rw [hs] at hk h3; cases hk; exact hI.m.live h3
      | constructing => rw [hs] at hk h3; cases hk; exact hI.m.live h3
      | initialising => rw [hs] at hk h3; cases hk; exact hI.m.live h3.1
      | failing => rw [hs] at hk h3; cases hk; exact hI.m.live h3.1
      | complete => rw [hs] at hk h3; cases hk; exact hI.m.live h3
      | dying => rw [hs] at hk h3; cases hk; exact hI.m.live h3.2
      | giving => rw [hs] at hk h3; cases hk; exact hI.m.live h3
      | leaving => rw [hs] at hk h3; cases hk; exact hI.m.live h3

/-- **C89**: hence a storage that was made is deleted when the last allocator object of user code and the last stack are gone: nothing leaks. -/
theorem C89_deleted {s : St} (h : ReachOk s) (p : Pool) (hp : s.pool p ≠ .absent) (hu : ∀ u, s.obj u ≠ .live .user (some p)) (hk : ∀ k, storage (s.stk k) ≠ some p) :
    s.pool p = .deleted := by
  have := C89_alive h p
  cases hs : s.pool p with
  | absent => exact (hp hs).elim
  | deleted => rfl
  | alive =>
    rcases this.1 hs with ⟨u, h⟩ | ⟨k, h⟩
    · exact (hu u h).elim
    · exact (hk k h).elim

/-- **C89**: no allocator object refers to a deleted storage, and a deleted storage stays deleted. -/
theorem C89_dead {s : St} (h : Reach s) (p : Pool) (hp : s.pool p = .deleted) :
    (∀ i o, s.obj i ≠ .live o (some p)) ∧ ∀ s', Step s s' → s'.pool p = .deleted := by
  have hI := reach_inv h
  have hno : ∀ i o, s.obj i ≠ .live o (some p) := by
    intro i o hi; have := hI.m.live hi; rw [hp] at this; cases this
  refine ⟨hno, ?_⟩
  intro s' hs
  have hI' := inv_step hI hs
  have hlt : ¬ s.nPool ≤ p := fun hc => by have := (hI.m.made p).2 hc; rw [hp] at this; cases this
  have hdrop : ∀ (t : St) i, t.pool p = .deleted → (t.dropObj i).pool p = .deleted := by
    intro t i ht
    simp only [dropObj]
    cases t.val i with
    | none => exact ht
    | some q =>
      simp only [release]
      split
      · show upd t.pool q .deleted p = .deleted
        simp only [upd_apply]; split
        · rfl
        · exact ht
      · exact ht
  cases hs with
  | make =>
    show upd s.pool s.nPool .alive p = _
    simp only [upd_apply]; rw [if_neg]; exact hp
    rintro rfl; exact hlt (Nat.le_refl _)
  | copy => simpa using hp
  | move => simpa using hp
  | drop => exact hdrop _ _ hp
  | hold => exact hp
  | unhold => simpa using hp
  | create1 => exact hp
  | create2 => exact hp
  | construct => simp only [needs_pool]; split <;> simpa using hp
  | created => exact hp
  | getcontextFails => exact hp
  | failed => exact hdrop _ _ hp
  | failed2 => simpa using hp
  | destroy => exact hp
  | destroyRecord => exact hdrop _ _ hp
  | give => simpa using hp
  | leave => exact hdrop _ _ hp

/-- **C89**: a stack that was given back is not given back again, and until then it belongs to the storage it was allocated from. -/
theorem C89_stack {s s' : St} (h : Reach s) (hs : Step s s') (k : Stk) (p : Pool) :
    (s.stk k = .returned p → s'.stk k = .returned p) ∧ (storage (s.stk k) = some p → storage (s'.stk k) = some p ∨ s'.stk k = .returned p) := by
  have hP := (reach_inv h).p
  have key : ∀ (j : Nat) (ph : Phase), s'.stk = upd s.stk j ph → (∀ q, s.stk j ≠ .returned q) → (∀ q, storage (s.stk j) = some q → storage ph = some q ∨ ph = .returned q) →
      (s.stk k = .returned p → s'.stk k = .returned p) ∧ (storage (s.stk k) = some p → storage (s'.stk k) = some p ∨ s'.stk k = .returned p) := by
    intro j ph he h1 h2
    rw [he, upd_apply]
    split
    · rename_i e; subst e
      exact ⟨fun hc => (h1 _ hc).elim, h2 p⟩
    · exact ⟨id, .inl⟩
  have same : s'.stk = s.stk → (s.stk k = .returned p → s'.stk k = .returned p) ∧ (storage (s.stk k) = some p → storage (s'.stk k) = some p ∨ s'.stk k = .returned p) := by
    intro he; rw [he]; exact ⟨id, .inl⟩
  have hfr := hP.fresh _ (Nat.le_refl _)
  cases hs with
  | make => exact same rfl
  | copy => exact same (by simp)
  | move => exact same (by simp)
  | drop => exact same (by simp)
  | hold => exact key _ _ rfl (by simp [hfr]) (by simp [hfr, storage])
  | unhold _ q _ hk => exact key _ (.returned q) rfl (by simp [hk]) (by simp [hk, storage])
  | create1 => exact key _ _ rfl (by simp [hfr]) (by simp [hfr, storage])
  | create2 _ _ _ _ _ hk => exact key _ _ rfl (by simp [hk]) (by simp [hk, storage])
  | construct _ q u rv hk => exact key _ (.initialising q u rv _) rfl (by simp [hk]) (by simp [hk, storage])
  | created _ _ _ _ _ hk => exact key _ _ rfl (by simp [hk]) (by simp [hk, storage])
  | getcontextFails _ _ _ _ _ hk => exact key _ _ rfl (by simp [hk]) (by simp [hk, storage])
  | failed _ q u rv _ hk => exact key _ (.failing2 q u rv) rfl (by simp [hk]) (by simp [hk, storage])
  | failed2 _ q _ _ hk => exact key _ (.returned q) rfl (by simp [hk]) (by simp [hk, storage])
  | destroy _ _ _ hk => exact key _ _ rfl (by simp [hk]) (by simp [hk, storage])
  | destroyRecord _ q _ l hk => exact key _ (.giving q l) rfl (by simp [hk]) (by simp [hk, storage])
  | give _ q l hk => exact key _ (.leaving q l) rfl (by simp [hk]) (by simp [hk, storage])
  | leave _ q _ hk => exact key _ (.returned q) rfl (by simp [hk]) (by simp [hk, storage])

/-- the storages a stack has been given back to, by its phase -/
def given : Phase → List Pool
  | .leaving p _ | .returned p => [p]
  | _ => []

theorem back_upd {s s' : St} {k : Nat} {ph : Phase} (h : ∀ k, s.back k = given (s.stk k)) (hs : s'.stk = upd s.stk k ph) (hb : s'.back = upd s.back k (given ph)) :
    ∀ k, s'.back k = given (s'.stk k) := by
  intro j; rw [hs, hb]; simp only [upd_apply]; split
  · rfl
  · exact h j

theorem back_keep {s s' : St} {k : Nat} {ph ph' : Phase} (h : ∀ k, s.back k = given (s.stk k)) (hk : s.stk k = ph) (hs : s'.stk = upd s.stk k ph') (hb : s'.back = s.back)
    (he : given ph' = given ph) : ∀ k, s'.back k = given (s'.stk k) := by
  intro j; rw [hs, hb]; simp only [upd_apply]; split
  · rename_i e; rw [e, he, ← hk]; exact h k
  · exact h j

theorem back_dealloc {s : St} {i o : _} {k p : Nat} (hi : s.obj i = .live o (some p)) (hb : s.back k = []) : (s.deallocate i k p).back = upd s.back k [p] := by
  simp only [deallocate, val_live hi, hb]; rfl

/-- **C89**: each stack is given back exactly once, to the storage it was allocated from (`storage` does not change while the stack is outstanding, `C89_stack`). -/
theorem C89_given_back {s : St} (h : ReachOk s) (k : Stk) : s.back k = given (s.stk k) := by
  revert k
  induction h with
  | init => intro k; rfl
  | step hr hs hf ih =>
    rename_i s s'
    have hI := reach_inv hr.reach
    have hO := reachOk_inv hr
    have hP := hI.p
    have hfr := hP.fresh _ (Nat.le_refl _)
    cases hs with
    | make => exact ih
    | copy => simpa using ih
    | move => simpa using ih
    | drop => simpa using ih
    | hold => exact back_keep ih hfr rfl rfl rfl
    | unhold k p u hk =>
      have hu := hP.ph k; rw [hk] at hu
      exact back_upd (k := k) (ph := .returned p) ih rfl (back_dealloc hu (by rw [ih, hk]; rfl))
    | create1 => exact back_keep ih hfr rfl rfl rfl
    | create2 k _ _ _ _ hk => exact back_keep ih hk rfl rfl rfl
    | construct k p u rv hk =>
      exact back_keep (ph' := .initialising p u rv s.nObj) ih hk rfl (by cases rv <;> simp) rfl
    | created k _ _ _ _ hk => exact back_keep ih hk rfl rfl rfl
    | getcontextFails k _ _ _ _ hk => exact back_keep ih hk rfl rfl rfl
    | failed k p u rv r hk =>
      exact back_keep (ph' := .failing2 p u rv) ih hk rfl (by simp) rfl
    | failed2 k p u rv hk =>
      have hu := hP.ph k; rw [hk] at hu
      cases rv with
      | true => exact (hO.f2 _ _ _ hk).elim
      | false => exact back_upd (k := k) (ph := .returned p) ih rfl (back_dealloc hu (by rw [ih, hk]; rfl))
    | destroy k _ _ hk => exact back_keep ih hk rfl rfl rfl
    | destroyRecord k p r l hk =>
      exact back_keep (ph' := .giving p l) ih hk rfl (by simp) rfl
    | give k p l hk =>
      have hu := hP.ph k; rw [hk] at hu
      exact back_upd (k := k) (ph := .leaving p l) ih rfl (back_dealloc hu (by rw [ih, hk]; rfl))
    | leave k p l hk =>
      exact back_keep (ph' := .returned p) ih hk rfl (by simp) rfl

/-! ### Failure of `getcontext` -/

/-- the states of a creation in which `getcontext` fails: `create_fiber1( salloc, fn)` with `salloc` bound to `u` -/
def f1 (s : St) (p u : Nat) (rv : Bool) : St := { s.needs p with stk := upd s.stk s.nStk (.constructing p u rv), nStk := s.nStk + 1 }
def f2 (s : St) (k p u : Nat) (rv : Bool) : St :=
  { (if rv then s.moveObj (.member k) u .user else s.copyObj (.member k) u).needs p with stk := upd s.stk k (.initialising p u rv s.nObj) }
def f3 (s : St) (k p u : Nat) (rv : Bool) (r : Nat) : St := { s.needs p with stk := upd s.stk k (.failing p u rv r) }
def f4 (s : St) (k p u : Nat) (rv : Bool) (r : Nat) : St := { (s.needs p).dropObj r with stk := upd s.stk k (.failing2 p u rv) }
def f5 (s : St) (k p u : Nat) : St := { s.deallocate u k p with stk := upd s.stk k (.returned p) }

theorem upd_same {β : Type} (f : Nat → β) (a : Nat) (b : β) : upd f a b a = b := by simp [upd]
theorem upd_upd {β : Type} (f : Nat → β) (a : Nat) (b c : β) : upd (upd f a b) a c = upd f a c := by
  funext x; simp only [upd_apply]; split <;> rfl
theorem upd_self {β : Type} (f : Nat → β) (a : Nat) (b : β) (h : f a = b) : upd f a b = f := by
  funext x; simp only [upd_apply]; split
  · rename_i e; rw [e, h]
  · rfl

/-- reflexive, transitive closure of `Step` -/
inductive Steps : St → St → Prop
  | refl (s) : Steps s s
  | step {a b c} : Step a b → Steps b c → Steps a c

theorem Steps.trans {a b c : St} (h : Steps a b) (h' : Steps b c) : Steps a c := by
  induction h with
  | refl => exact h'
  | step hs _ ih => exact .step hs (ih h')

/-- **C89**: a creation with an lvalue allocator in which `getcontext` fails leaves all allocators and storages as they were, and the stack has been given back. -/
theorem C89_getcontext_lvalue {s : St} (h : Reach s) (u p : Nat) (hu : s.obj u = .live .user (some p)) (hsh : Shared s u) :
    ∃ s', Steps s s' ∧ s'.obj = s.obj ∧ s'.count = s.count ∧ s'.pool = s.pool ∧ s'.fault = s.fault ∧ s'.stk = upd s.stk s.nStk (.returned p) ∧ s'.back = upd s.back s.nStk (s.back s.nStk ++ [p]) := by
  have hI := reach_inv h
  have hM := hI.m
  have hpool := hM.live hu
  have hpos := hM.pos hu
  have hfr : s.obj s.nObj = .absent := hM.fresh _ (Nat.le_refl _)
  have hun : u ≠ s.nObj := fun e => Nat.lt_irrefl _ (e ▸ hM.lt hu)
  obtain ⟨a, ha⟩ : ∃ a, a = f1 s p u false := ⟨_, rfl⟩
  have sa : Step s a := by rw [ha]; exact .create1 u p false hu (by simpa using hsh)
  have aobj : a.obj = s.obj := by rw [ha]; rfl
  have acnt : a.count = s.count := by rw [ha]; rfl
  have apool : a.pool = s.pool := by rw [ha]; rfl
  have anObj : a.nObj = s.nObj := by rw [ha]; rfl
  have afault : a.fault = s.fault := by rw [ha]; simp [f1, needs, hpool]
  have astk : a.stk = upd s.stk s.nStk (.constructing p u false) := by rw [ha]; rfl
  have aback : a.back = s.back := by rw [ha]; rfl
  clear ha
  obtain ⟨b, hb⟩ : ∃ b, b = f2 a s.nStk p u false := ⟨_, rfl⟩
  have sb : Step a b := by rw [hb]; exact .construct s.nStk p u false (by rw [astk, upd_same])
  have hau : a.obj u = .live .user (some p) := by rw [aobj]; exact hu
  have bobj : b.obj = upd s.obj s.nObj (.live (.member s.nStk) (some p)) := by
    rw [hb]; simp only [f2, Bool.false_eq_true, if_false, needs_obj, copyObj_obj, val_live hau, aobj, anObj]
  have bcnt : b.count = upd s.count p (s.count p + 1) := by
    rw [hb]; simp only [f2, Bool.false_eq_true, if_false]
    show (a.copyObj (.member s.nStk) u).count = _
    simp only [copyObj, val_live hau, addRef]
    rw [acnt]
  have bpool : b.pool = s.pool := by
    rw [hb]; simp only [f2, Bool.false_eq_true, if_false, needs_pool, copyObj_pool, apool]
  have bfault : b.fault = s.fault := by
    rw [hb]; simp only [f2, Bool.false_eq_true, if_false]
    show ((a.copyObj (.member s.nStk) u).fault || decide ((a.copyObj (.member s.nStk) u).pool p ≠ .alive)) = _
    rw [copyObj_pool, apool, hpool]
    simp only [copyObj, val_live hau, addRef, needs, apool, hpool, afault]; simp
  have bstk : b.stk = upd s.stk s.nStk (.initialising p u false s.nObj) := by
    rw [hb]; show upd a.stk _ (.initialising p u false a.nObj) = _; rw [astk, upd_upd, anObj]
  have bback : b.back = s.back := by rw [hb]; show (a.copyObj (.member s.nStk) u).back = _; rw [copyObj_back, aback]
  clear hb
  obtain ⟨c, hc⟩ : ∃ c, c = f3 b s.nStk p u false s.nObj := ⟨_, rfl⟩
  have sc : Step b c := by rw [hc]; exact .getcontextFails s.nStk p u false s.nObj (by rw [bstk, upd_same])
  have cobj : c.obj = b.obj := by rw [hc]; rfl
  have ccnt : c.count = b.count := by rw [hc]; rfl
  have cpool : c.pool = s.pool := by rw [hc]; exact bpool
  have cfault : c.fault = s.fault := by rw [hc]; simp [f3, needs, bpool, hpool, bfault]
  have cstk : c.stk = upd s.stk s.nStk (.failing p u false s.nObj) := by rw [hc]; show upd b.stk _ _ = _; rw [bstk, upd_upd]
  have cback : c.back = s.back := by rw [hc]; exact bback
  clear hc
  obtain ⟨d, hd⟩ : ∃ d, d = f4 c s.nStk p u false s.nObj := ⟨_, rfl⟩
  have sd : Step c d := by rw [hd]; exact .failed s.nStk p u false s.nObj (by rw [cstk, upd_same])
  have hcr : (c.needs p).val s.nObj = some p := by
    refine val_live (o := .member s.nStk) ?_; rw [needs_obj, cobj, bobj, upd_same]
  have hcc : (c.needs p).count p - 1 = s.count p := by show c.count p - 1 = _; rw [ccnt, bcnt, upd_same]; omega
  have hne : ¬ s.count p = 0 := by omega
  have dobj : d.obj = s.obj := by
    rw [hd]; show ((c.needs p).dropObj s.nObj).obj = _
    rw [dropObj_obj, needs_obj, cobj, bobj, upd_upd, upd_self _ _ _ hfr]
  have drop : ((c.needs p).dropObj s.nObj) = { ((c.needs p).needs p) with count := upd c.count p (s.count p), obj := upd c.obj s.nObj .absent } := by
    simp only [dropObj, hcr, release]
    rw [if_neg (show ¬ ((c.needs p).needs p).count p - 1 = 0 by show ¬ (c.needs p).count p - 1 = 0; rw [hcc]; exact hne)]
    show ({ ((c.needs p).needs p) with count := upd c.count p ((c.needs p).count p - 1), obj := _ } : St) = _
    rw [hcc]
    rfl
  have dcnt : d.count = s.count := by
    rw [hd]; show ((c.needs p).dropObj s.nObj).count = _
    rw [drop]; show upd c.count p (s.count p) = _
    rw [ccnt, bcnt, upd_upd, upd_self _ _ _ rfl]
  have dpool : d.pool = s.pool := by
    rw [hd]; show ((c.needs p).dropObj s.nObj).pool = _
    rw [drop]; exact cpool
  have dfault : d.fault = s.fault := by
    rw [hd]; show ((c.needs p).dropObj s.nObj).fault = _
    rw [drop]; simp [needs, cpool, hpool, cfault]
  have dstk : d.stk = upd s.stk s.nStk (.failing2 p u false) := by rw [hd]; show upd c.stk _ _ = _; rw [cstk, upd_upd]
  have dback : d.back = s.back := by rw [hd]; show ((c.needs p).dropObj s.nObj).back = _; rw [dropObj_back]; exact cback
  clear hd drop
  obtain ⟨e, he⟩ : ∃ e, e = f5 d s.nStk p u := ⟨_, rfl⟩
  have se : Step d e := by rw [he]; exact .failed2 s.nStk p u false (by rw [dstk, upd_same])
  have hdu : d.val u = some p := val_live (o := .user) (by rw [dobj]; exact hu)
  refine ⟨e, .step sa (.step sb (.step sc (.step sd (.step se (.refl _))))), ?_, ?_, ?_, ?_, ?_, ?_⟩
  · rw [he]; show (d.deallocate u s.nStk p).obj = _; rw [dealloc_obj, dobj]
  · rw [he]; show (d.deallocate u s.nStk p).count = _; simp only [deallocate, hdu]; exact dcnt
  · rw [he]; show (d.deallocate u s.nStk p).pool = _; rw [dealloc_pool, dpool]
  · rw [he]; show (d.deallocate u s.nStk p).fault = _; simp only [deallocate, hdu]; simp [needs, dpool, hpool, dfault]
  · rw [he]; show upd d.stk _ _ = _; rw [dstk, upd_upd]
  · rw [he]; show (d.deallocate u s.nStk p).back = _; simp only [deallocate, hdu]; rw [dback]

/-- **C89** (defect): with an rvalue allocator -- the usual `fiber{ std::allocator_arg, pooled_fixedsize_stack{}, fn }` -- the allocator has been moved into the record when `getcontext`
fails, the record is destroyed first (fiber_ucontext.hpp 323), and `salloc.deallocate( sctx)` (324) goes through the moved-from object: whatever else happens in between, the step that
ends the creation is undefined and gives the stack to no storage. -/
theorem C89_getcontext_rvalue {s s' : St} (h : Reach s) (k p u : Nat) (hk : s.stk k = .failing2 p u true) (hs : Step s s') (hk' : s'.stk k ≠ s.stk k) :
    s'.fault = true ∧ s'.back k = s.back k := by
  have hP := (reach_inv h).p
  have hu := hP.ph k
  rw [hk] at hu
  have hv : s.val u = none := val_live hu
  have key : ∀ (j : Nat) (ph : Phase), s'.stk = upd s.stk j ph → (j = k → s'.fault = true ∧ s'.back k = s.back k) → s'.fault = true ∧ s'.back k = s.back k := by
    intro j ph he hj
    by_cases e : j = k
    · exact hj e
    · rw [he, upd_apply, if_neg (fun a => e a.symm)] at hk'; exact (hk' rfl).elim
  have same : s'.stk = s.stk → s'.fault = true ∧ s'.back k = s.back k := by
    intro he; rw [he] at hk'; exact (hk' rfl).elim
  have hfr := hP.fresh _ (Nat.le_refl _)
  cases hs with
  | make => exact same rfl
  | copy => exact same (by simp)
  | move => exact same (by simp)
  | drop => exact same (by simp)
  | hold => exact key _ _ rfl (fun e => by rw [e, hk] at hfr; cases hfr)
  | unhold j q v hj => exact key j _ rfl (fun e => by rw [e, hk] at hj; cases hj)
  | create1 => exact key _ _ rfl (fun e => by rw [e, hk] at hfr; cases hfr)
  | create2 j _ _ _ _ hj => exact key j _ rfl (fun e => by rw [e, hk] at hj; cases hj)
  | construct j _ _ _ hj => exact key j _ rfl (fun e => by rw [e, hk] at hj; cases hj)
  | created j _ _ _ _ hj => exact key j _ rfl (fun e => by rw [e, hk] at hj; cases hj)
  | getcontextFails j _ _ _ _ hj => exact key j _ rfl (fun e => by rw [e, hk] at hj; cases hj)
  | failed j _ _ _ _ hj => exact key j _ rfl (fun e => by rw [e, hk] at hj; cases hj)
  | failed2 j q v rv hj =>
    refine key j _ rfl (fun e => ?_)
    rw [e, hk] at hj; cases hj
    simp only [deallocate, hv]; exact ⟨trivial, trivial⟩
  | destroy j _ _ hj => exact key j _ rfl (fun e => by rw [e, hk] at hj; cases hj)
  | destroyRecord j _ _ _ hj => exact key j _ rfl (fun e => by rw [e, hk] at hj; cases hj)
  | give j _ _ hj => exact key j _ rfl (fun e => by rw [e, hk] at hj; cases hj)
  | leave j _ _ hj => exact key j _ rfl (fun e => by rw [e, hk] at hj; cases hj)

/-- **C89** (defect): and if the record held the last reference, the storage -- with the stack, on which the record lies that is just being destroyed -- is deleted before. -/
theorem C89_getcontext_rvalue_deletes {s : St} (h : Reach s) (k p u r : Nat) (hk : s.stk k = .failing p u true r) (hlast : ∀ i o, i ≠ r → s.obj i ≠ .live o (some p)) :
    ∃ s', Step s s' ∧ s'.stk k = .failing2 p u true ∧ s'.pool p = .deleted := by
  refine ⟨_, .failed k p u true r hk, upd_same _ _ _, ?_⟩
  have hI' := inv_step (reach_inv h) (.failed k p u true r hk)
  have hr := (reach_inv h).p.ph k
  rw [hk] at hr
  have hlt := (reach_inv h).m.mk_lt hr.1
  have hno : ∀ i o, ((s.needs p).dropObj r).obj i ≠ .live o (some p) := by
    intro i o; rw [dropObj_obj, needs_obj, upd_apply]; split
    · simp
    · rename_i e; exact hlast i o e
  have h0 := hI'.m.alive p
  rw [hI'.m.cnt, cnt_pos] at h0
  have h1 := hI'.m.made p
  generalize hst : ({ (s.needs p).dropObj r with stk := upd s.stk k (.failing2 p u true) } : St) = t at *
  have ht : t.obj = ((s.needs p).dropObj r).obj := by rw [← hst]
  have hn : t.nPool = s.nPool := by rw [← hst]; simp only [dropObj]; cases (s.needs p).val r <;> simp only [release] <;> try rfl
                                    split <;> rfl
  cases hp : t.pool p with
  | deleted => rfl
  | absent => have := h1.1 hp; omega
  | alive =>
    obtain ⟨i, _, o, ho⟩ := h0.1 hp
    rw [ht] at ho; exact (hno i o ho).elim

/-! ### Concrete histories -/

/-- Make an allocator, create a context from a copy of it, destroy the user's object; the context keeps the storage alive; when it is destroyed, the storage is deleted. -/
def e1 : St := { init with obj := upd init.obj 0 (.live .user (some 0)), count := upd init.count 0 1, pool := upd init.pool 0 .alive, nObj := 1, nPool := 1 }
def e2 : St := f1 e1 0 0 false
def e3 : St := f2 e2 0 0 0 false
def e4 : St := { e3.needs 0 with stk := upd e3.stk 0 (.complete 0 1) }
def e5 : St := e4.dropObj 0
def e6 : St := { (e5.needs 0).moveObj (.localOf 0) 1 (.member 0) with stk := upd e5.stk 0 (.dying 0 1 2) }
def e7 : St := { (e6.needs 0).dropObj 1 with stk := upd e6.stk 0 (.giving 0 2) }
def e8 : St := { e7.deallocate 2 0 0 with stk := upd e7.stk 0 (.leaving 0 2) }
def e9 : St := { e8.dropObj 2 with stk := upd e8.stk 0 (.returned 0) }

theorem nofail_upd {s : St} {f : Stk → Phase} (hs : s.stk = f) (h : ∀ k p u r, f k ≠ .failing p u true r) : ∀ k p u r, s.stk k ≠ .failing p u true r := by
  rw [hs]; exact h
theorem nf {f : Stk → Phase} {k : Nat} {ph : Phase} (h : ∀ k p u r, f k ≠ .failing p u true r) (hp : ∀ p u r, ph ≠ .failing p u true r) : ∀ j p u r, upd f k ph j ≠ .failing p u true r := by
  intro j p u r; rw [upd_apply]; split
  · exact hp p u r
  · exact h j p u r

theorem okE {s s' : St} (h : ReachOk s) (hs : Step s s') {k : Nat} {ph : Phase} (he : s'.stk = upd s.stk k ph) (hp : ∀ p u r, ph ≠ .failing p u true r) : ReachOk s' :=
  .step h hs (nofail_upd he (nf (reachOk_inv h).f1 hp))

theorem ok1 : ReachOk e1 := .step .init (.make init) (by intro k p u r; simp [e1, init])
theorem ok2 : ReachOk e2 := okE (s := e1) (k := 0) (ph := .constructing 0 0 false) ok1 (.create1 0 0 false rfl (by intro k; simp [e1, init, uses])) rfl (by simp)
theorem ok3 : ReachOk e3 := okE (s := e2) (k := 0) (ph := .initialising 0 0 false 1) ok2 (.construct 0 0 0 false rfl) rfl (by simp)
theorem ok4 : ReachOk e4 := okE (s := e3) (k := 0) (ph := .complete 0 1) ok3 (.created 0 0 0 false 1 rfl) rfl (by simp)
theorem ok5 : ReachOk e5 := .step (s := e4) ok4 (.drop 0 (some 0) rfl (by
  intro k b; show uses (upd (upd (upd (fun _ => Phase.absent) 0 _) 0 _) 0 (.complete 0 1) k) ≠ _
  simp only [upd_apply]; split <;> simp [uses]))
  (by rw [e5, dropObj_stk]; exact (reachOk_inv ok4).f1)
theorem ok6 : ReachOk e6 := okE (s := e5) (k := 0) (ph := .dying 0 1 2) ok5 (.destroy 0 0 1 rfl) rfl (by simp)
theorem ok7 : ReachOk e7 := okE (s := e6) (k := 0) (ph := .giving 0 2) ok6 (.destroyRecord 0 0 1 2 rfl) rfl (by simp)
theorem ok8 : ReachOk e8 := okE (s := e7) (k := 0) (ph := .leaving 0 2) ok7 (.give 0 0 2 rfl) rfl (by simp)
theorem ok9 : ReachOk e9 := okE (s := e8) (k := 0) (ph := .returned 0) ok8 (.leave 0 0 2 rfl) rfl (by simp)

/-- after the user's allocator is gone the storage lives on, because of the context -/
example : ReachOk e5 ∧ e5.pool 0 = .alive ∧ e5.obj 0 = .absent ∧ storage (e5.stk 0) = some 0 := ⟨ok5, rfl, rfl, rfl⟩
/-- and when the context has been destroyed it is deleted -/
example : ReachOk e9 ∧ e9.pool 0 = .deleted ∧ e9.stk 0 = .returned 0 ∧ e9.back 0 = [0] ∧ e9.fault = false := ⟨ok9, rfl, rfl, rfl, rfl⟩
/-- the hypotheses of `C89_getcontext_lvalue` -/
example : Reach e1 ∧ e1.obj 0 = .live .user (some 0) ∧ Shared e1 0 := ⟨ok1.reach, rfl, by intro k; simp [e1, init, uses]⟩

/-- the history of the defect: an rvalue allocator and a failing `getcontext` -/
def x2 : St := f1 e1 0 0 true
def x3 : St := f2 x2 0 0 0 true
def x4 : St := f3 x3 0 0 0 true 1
def x5 : St := f4 x4 0 0 0 true 1
def x6 : St := f5 x5 0 0 0
theorem rx4 : Reach x4 := .step (s := x3) (.step (s := x2) (.step ok1.reach (.create1 0 0 true rfl (by intro k b; simp [e1, init, uses]))) (.construct 0 0 0 true rfl))
  (.getcontextFails 0 0 0 true 1 rfl)
theorem rx5 : Reach x5 := .step rx4 (.failed 0 0 0 true 1 rfl)
example : Reach x5 ∧ x5.stk 0 = .failing2 0 0 true ∧ x5.pool 0 = .deleted ∧ x5.fault = false := ⟨rx5, rfl, rfl, rfl⟩
example : Reach x6 ∧ x6.fault = true := ⟨.step rx5 (.failed2 0 0 0 true rfl), rfl⟩

end Verif.Mem.Record
