import Verif.UFiber.Spec
import Verif.Fiber.Steps

/-! # The inductive invariant of the ucontext fiber machine (definitions only)

Holds as long as no destructor is executed on a never started fiber. -/

namespace Verif.UFiber
open Verif.Fiber (CtxId Var Tid Kind Exc Mode UKind Frame Status Event Op CreateOutcome upd upd_apply lvars evars rvars exits
  ModeOK SuspTop RunTop DtorTop lvars_nil evars_nil rvars_nil lvars_cons evars_cons rvars_cons exits_nil exits_cons
  dtorTop_iff suspTop_iff runTop_iff modeOK_unwinding modeOK_normal)

/-- which frame may lie directly on which stack -/
def Adj : Frame → List Frame → Prop
  | .user .main _ m, rest => ModeOK .main m ∧ rest = []
  | .user .fn _ m, rest => ModeOK .fn m ∧ rest = [.entryRun]
  | .user .call _ m, .user _ _ .normal :: _ => ModeOK .call m
  | .user .cleanup _ m, .user _ _ _ :: _ => ModeOK .cleanup m
  | .user .cleanup _ m, .exiting _ :: _ => ModeOK .cleanup m
  | .user (.ontop i) _ m, .resume :: _ => ModeOK (.ontop i) m
  | .entryJump, [] => True
  | .entryRun, [] => True
  | .resume, .user _ _ .normal :: _ => True
  | .dtor _, .user _ _ _ :: _ => True
  | .dtor _, .exiting _ :: _ => True
  | .exiting _, .user _ _ _ :: _ => True
  | .exiting _, .exiting _ :: _ => True
  | .exiting n, .dtor v :: _ => n = v
  | _, _ => False

def WF : List Frame → Prop
  | [] => True
  | f :: rest => Adj f rest ∧ WF rest

/-- Control part: threads, statuses, call stacks.  `mid` is a context that has just been switched to and has not yet
processed the transfer (`none` between steps). -/
structure CInv (s : State) (mid : Option CtxId) : Prop where
  curRun : ∀ t c, s.cur t = some c ↔ s.status c = .running t
  absent : ∀ c, s.status c = .absent ↔ s.nextCtx ≤ c
  tids : ∀ t, s.nextTid ≤ t → s.cur t = none
  noRaw : ∀ c, s.status c ≠ .raw
  fAbsent : ∀ c, s.status c = .absent → s.frames c = []
  fFreed : ∀ c, s.status c = .freed → s.frames c = []
  fEnded : ∀ c, s.status c = .ended → s.frames c = []
  fTerm : ∀ c, s.status c = .terminated → s.frames c = [.exitJump]
  wf : ∀ c, s.status c ≠ .terminated → WF (s.frames c)
  susp : ∀ c, s.status c = .suspended → SuspTop (s.frames c)
  midTop : ∀ c, mid = some c → SuspTop (s.frames c) ∧ ∃ t, s.status c = .running t
  runTop : ∀ c t, s.status c = .running t → mid ≠ some c → RunTop (s.frames c)
  exitT : ∀ n d, 0 < exits n (s.frames d) → s.status n = .terminated
  exitU : ∀ n d d', 0 < exits n (s.frames d) → 0 < exits n (s.frames d') → d = d'
  exit1 : ∀ n d, exits n (s.frames d) ≤ 1
  termI : ∀ c, s.term c = true ↔ s.status c = .terminated ∨ s.status c = .freed

/-- Object part: every live object has exactly one owner. -/
structure OInv (s : State) : Prop where
  locs : ∀ c x, x ∈ lvars (s.frames c) ↔ s.kind x = .loc c
  excs : ∀ c x, x ∈ evars (s.frames c) ↔ s.kind x = .exc c
  rets : ∀ c x, x ∈ rvars (s.frames c) ↔ s.kind x = .ret c
  capv : ∀ c x, x ∈ s.caps c ↔ s.kind x = .cap c
  locsN : ∀ c, (lvars (s.frames c)).Nodup
  excsN : ∀ c, (evars (s.frames c)).Nodup
  retsN : ∀ c, (rvars (s.frames c)).Nodup
  capsN : ∀ c, (s.caps c).Nodup
  capsF : ∀ c, s.status c = .freed → s.caps c = []
  capsA : ∀ c, s.nextCtx ≤ c → s.caps c = []
  fresh : ∀ x, s.nextVar ≤ x → s.kind x = .dead

/-- a pointer may point to a suspended fiber or to a finished one that nobody is releasing -/
def PtrOK (s : State) (c : CtxId) : Prop :=
  (s.status c = .suspended ∨ s.status c = .terminated) ∧ ∀ d, exits c (s.frames d) = 0

/-- Value part: which record pointers exist, `r` being those in registers in the middle of a step. -/
structure VInv (s : State) (r : List CtxId) : Prop where
  deadNone : ∀ x, s.kind x = .dead → s.val x = none
  valid : ∀ x c, s.val x = some c → PtrOK s c
  inj : ∀ x y c, s.val x = some c → s.val y = some c → x = y
  validR : ∀ c ∈ r, PtrOK s c
  disjR : ∀ c ∈ r, ∀ x, s.val x ≠ some c
  nodupR : r.Nodup
  held : ∀ c, (s.status c = .suspended ∨ s.status c = .terminated) →
    s.lost c = true ∨ (∃ x, s.val x = some c) ∨ c ∈ r ∨ ∃ d, 0 < exits c (s.frames d)
  excTop : ∀ x c w v, s.kind x = .exc c → s.val x = some w → DtorTop v (s.frames w) → v = c
  nonExc : ∀ x w, (∀ c, s.kind x ≠ .exc c) → s.val x = some w → ∀ v, ¬ DtorTop v (s.frames w)
  excSome : ∀ x c, s.kind x = .exc c → s.val x ≠ none
  lostS : ∀ c, s.lost c = true → PtrOK s c ∧ (∀ x, s.val x ≠ some c) ∧ c ∉ r

/-- The invariant between steps. -/
structure Inv (s : State) : Prop where
  ci : CInv s none
  oi : OInv s
  vi : VInv s []

end Verif.UFiber
