/-!
# Stack allocators and the records of contexts (C89)

An allocator object is modelled as a reference counted pointer to the storage its stacks come from (`pooled_fixedsize_stack`: `intrusive_ptr< storage >`,
pooled_fixedsize_stack.hpp 113-141; a user's own allocator with shared state is of the same kind; `fixedsize_stack` and `protected_fixedsize_stack` have no state that could be
lost).  `none` is a moved-from allocator object.  Any number of threads create and destroy contexts and copy, move and destroy allocators; the functions `create_fiber1`,
`create_fiber2` and `destroy` are executed in the small steps of `Phase`, interleaved in any order.

Modelled: fiber_fcontext.hpp 121-145, 167-180, 210-222; continuation_fcontext.hpp 123-148, 170-183; fiber_ucontext.hpp 252-277, 306-327, 358-378;
continuation_ucontext.hpp 227-252, 281-303, 325-346; fiber_winfib.hpp 194-219, 243-275; continuation_winfib.hpp 195-219.
Simplification: the count and the deletion of the storage are one step here (their interleaving is C45).
-/

namespace Verif.Mem.Record

abbrev Pool := Nat
abbrev Slot := Nat
abbrev Stk := Nat

/-- who owns an allocator object: user code, the record on a stack (member `salloc_`), `destroy()` of the record on a stack (local `salloc`) -/
inductive Owner | user | member (k : Stk) | localOf (k : Stk)
  deriving DecidableEq, Repr

/-- an allocator object -/
inductive Obj
  | absent
  /-- alive; its storage, or `none` if moved from -/
  | live (o : Owner) (v : Option Pool)
  deriving DecidableEq, Repr

inductive PState | absent | alive | deleted
  deriving DecidableEq, Repr

/-- What happens with a stack; `p` is the storage it was allocated from (ghost). -/
inductive Phase
  | absent
  /-- allocated by user code through its object `v`, which it keeps -/
  | held (p : Pool) (v : Slot)
  /-- in `create_fiber1` (after line 169 of fiber_fcontext.hpp, 310 of fiber_ucontext.hpp) or `create_fiber2`: the record has not been constructed; parameter `salloc` refers to
  `u`, as rvalue iff `rv` -/
  | constructing (p : Pool) (u : Slot) (rv : Bool)
  /-- the record with member `salloc_` = `r` has been constructed (line 175; 316), `getcontext` has not been called (only ucontext) -/
  | initialising (p : Pool) (u : Slot) (rv : Bool) (r : Slot)
  /-- `getcontext` failed; before `record->~capture_t()` (fiber_ucontext.hpp 323) -/
  | failing (p : Pool) (u : Slot) (rv : Bool) (r : Slot)
  /-- before `salloc.deallocate( sctx)` (fiber_ucontext.hpp 324) -/
  | failing2 (p : Pool) (u : Slot) (rv : Bool)
  /-- the context exists -/
  | complete (p : Pool) (r : Slot)
  /-- in `destroy()`, after `salloc = std::move( p->salloc_)` (129; 259), before `p->~fiber_record()` -/
  | dying (p : Pool) (r l : Slot)
  /-- before `salloc.deallocate( sctx)` (134; 264) -/
  | giving (p : Pool) (l : Slot)
  /-- before the end of `destroy()`, the destruction of the local `salloc` -/
  | leaving (p : Pool) (l : Slot)
  /-- the stack has been given back -/
  | returned (p : Pool)
  deriving DecidableEq, Repr

structure St where
  obj : Slot → Obj
  /-- `use_count_` -/
  count : Pool → Nat
  pool : Pool → PState
  stk : Stk → Phase
  /-- the storages a stack was given back to (`storage_.free( vp)`, pooled_fixedsize_stack.hpp 110), in order -/
  back : Stk → List Pool
  nObj : Nat
  nPool : Nat
  nStk : Nat
  /-- something undefined happened: a null or dangling storage pointer was used, a stack was given to a storage it does not come from, or a record on a stack whose storage is gone was
  accessed -/
  fault : Bool

def upd {β : Type} (f : Nat → β) (a : Nat) (b : β) : Nat → β := fun x => if x = a then b else f x
theorem upd_apply {β : Type} (f : Nat → β) (a : Nat) (b : β) (x : Nat) : upd f a b x = if x = a then b else f x := rfl

def init : St := ⟨fun _ => .absent, fun _ => 0, fun _ => .absent, fun _ => .absent, fun _ => [], 0, 0, 0, false⟩

namespace St

/-- undefined behaviour unless storage `p` is alive -/
def needs (s : St) (p : Pool) : St := { s with fault := s.fault || decide (s.pool p ≠ .alive) }

/-- a copy of a pointer: `intrusive_ptr_add_ref` (113-115), nothing for a null pointer -/
def addRef (s : St) : Option Pool → St
  | none => s
  | some p => { s.needs p with count := upd s.count p (s.count p + 1) }

/-- destruction of a pointer: `intrusive_ptr_release` (117-121), nothing for a null pointer -/
def release (s : St) : Option Pool → St
  | none => s
  | some p =>
    let s := s.needs p
    if s.count p - 1 = 0 then { s with count := upd s.count p (s.count p - 1), pool := upd s.pool p .deleted }
    else { s with count := upd s.count p (s.count p - 1) }

def val (s : St) (i : Slot) : Option Pool := match s.obj i with | .live _ v => v | .absent => none

/-- copy construction of a new allocator object from `i` -/
def copyObj (s : St) (o : Owner) (i : Slot) : St :=
  let s := s.addRef (s.val i)
  { s with obj := upd s.obj s.nObj (.live o (s.val i)), nObj := s.nObj + 1 }

/-- move construction of a new allocator object from `i` (owned by `oi`) -/
def moveObj (s : St) (o : Owner) (i : Slot) (oi : Owner) : St :=
  { s with obj := upd (upd s.obj i (.live oi none)) s.nObj (.live o (s.val i)), nObj := s.nObj + 1 }

/-- destruction of allocator object `i` -/
def dropObj (s : St) (i : Slot) : St :=
  let s := s.release (s.val i)
  { s with obj := upd s.obj i .absent }

/-- `salloc.deallocate( sctx)` through object `i`, for stack `k` of storage `p` -/
def deallocate (s : St) (i : Slot) (k : Stk) (p : Pool) : St :=
  match s.val i with
  | none => { s with fault := true }                                     -- `storage_->` on a null pointer (139)
  | some q => { s.needs q with fault := (s.needs q).fault || decide (q ≠ p), back := upd s.back k (s.back k ++ [q]) }

end St
open St

/-- the objects user code may not touch at the moment: those referred to by a call in progress, and the one kept for a stack allocated directly; `true`: not even be copied (the
object is being moved from) -/
def uses : Phase → Option (Slot × Bool)
  | .held _ v => some (v, false)
  | .constructing _ u rv => some (u, rv)
  | .initialising _ u rv _ => some (u, rv)
  | .failing _ u rv _ => some (u, rv)
  | .failing2 _ u rv => some (u, rv)
  | _ => none

/-- nobody refers to `u` -/
def Free (s : St) (u : Slot) : Prop := ∀ k b, uses (s.stk k) ≠ some (u, b)
/-- nobody is moving from `u` -/
def Shared (s : St) (u : Slot) : Prop := ∀ k, uses (s.stk k) ≠ some (u, true)
/-- `u` is an allocator object of user code with storage `p` -/
def Mine (s : St) (u : Slot) (p : Pool) : Prop := s.obj u = .live .user (some p)

/-- What the program and the library do, in any order, by any threads. -/
inductive Step : St → St → Prop
  /-- user code makes an allocator with a new storage (129-133) -/
  | make (s) : Step s { s with obj := upd s.obj s.nObj (.live .user (some s.nPool)), count := upd s.count s.nPool 1, pool := upd s.pool s.nPool .alive,
                               nObj := s.nObj + 1, nPool := s.nPool + 1 }
  | copy {s} (u v) : s.obj u = .live .user v → Shared s u → Step s (s.copyObj .user u)
  | move {s} (u v) : s.obj u = .live .user v → Free s u → Step s (s.moveObj .user u .user)
  | drop {s} (u v) : s.obj u = .live .user v → Free s u → Step s (s.dropObj u)
  /-- user code allocates a stack itself (for `preallocated`), and may deallocate it -/
  | hold {s} (u p) : Mine s u p → Shared s u → Step s { s.needs p with stk := upd s.stk s.nStk (.held p u), nStk := s.nStk + 1 }
  | unhold {s} (k p u) : s.stk k = .held p u → Step s { s.deallocate u k p with stk := upd s.stk k (.returned p) }
  /-- `create_fiber1( salloc, fn)`: `salloc.allocate()` succeeds (if it throws, nothing has happened) -/
  | create1 {s} (u p rv) : Mine s u p → (if rv then Free s u else Shared s u) →
      Step s { s.needs p with stk := upd s.stk s.nStk (.constructing p u rv), nStk := s.nStk + 1 }
  /-- `create_fiber2( palloc, salloc, fn)` on a stack allocated before; `salloc` must have the same storage -/
  | create2 {s} (k p v u rv) : s.stk k = .held p v → Mine s u p → (if rv then (∀ k' b, k' ≠ k → uses (s.stk k') ≠ some (u, b)) else Shared s u) →
      Step s { s with stk := upd s.stk k (.constructing p u rv) }
  /-- the record is constructed: `salloc_( std::forward< StackAlloc >( salloc))` -/
  | construct {s} (k p u rv) : s.stk k = .constructing p u rv →
      Step s { (if rv then s.moveObj (.member k) u .user else s.copyObj (.member k) u).needs p with stk := upd s.stk k (.initialising p u rv s.nObj) }
  | created {s} (k p u rv r) : s.stk k = .initialising p u rv r → Step s { s.needs p with stk := upd s.stk k (.complete p r) }
  /-- `getcontext` fails (only ucontext) -/
  | getcontextFails {s} (k p u rv r) : s.stk k = .initialising p u rv r → Step s { s.needs p with stk := upd s.stk k (.failing p u rv r) }
  | failed {s} (k p u rv r) : s.stk k = .failing p u rv r → Step s { (s.needs p).dropObj r with stk := upd s.stk k (.failing2 p u rv) }
  | failed2 {s} (k p u rv) : s.stk k = .failing2 p u rv → Step s { s.deallocate u k p with stk := upd s.stk k (.returned p) }
  /-- the context has finished: `destroy()` begins -/
  | destroy {s} (k p r) : s.stk k = .complete p r → Step s { (s.needs p).moveObj (.localOf k) r (.member k) with stk := upd s.stk k (.dying p r s.nObj) }
  | destroyRecord {s} (k p r l) : s.stk k = .dying p r l → Step s { (s.needs p).dropObj r with stk := upd s.stk k (.giving p l) }
  | give {s} (k p l) : s.stk k = .giving p l → Step s { s.deallocate l k p with stk := upd s.stk k (.leaving p l) }
  | leave {s} (k p l) : s.stk k = .leaving p l → Step s { s.dropObj l with stk := upd s.stk k (.returned p) }

inductive Reach : St → Prop
  | init : Reach init
  | step {s s'} : Reach s → Step s s' → Reach s'

/-- histories in which `getcontext` does not fail in a creation that was given an rvalue allocator -/
inductive ReachOk : St → Prop
  | init : ReachOk init
  | step {s s'} : ReachOk s → Step s s' → (∀ k p u r, s'.stk k ≠ .failing p u true r) → ReachOk s'

end Verif.Mem.Record
