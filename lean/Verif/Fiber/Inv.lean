import Verif.Fiber.Model

/-! # The inductive invariant of the fiber machine (definitions only) -/

namespace Verif.Fiber

@[simp, grind =] theorem upd_apply {α β : Type} [DecidableEq α] (f : α → β) (a : α) (b : β) (x : α) :
    upd f a b x = if x = a then b else f x := rfl

def Frame.lvars : Frame → List Var
  | .user _ ls _ => ls
  | _ => []

def Frame.evars : Frame → List Var
  | .user _ _ (.unwinding (.forced x)) => [x]
  | _ => []

def Frame.rvars : Frame → List Var
  | .user _ _ (.returning (some x)) => [x]
  | _ => []

def lvars (fs : List Frame) : List Var := fs.flatMap Frame.lvars
def evars (fs : List Frame) : List Var := fs.flatMap Frame.evars
def rvars (fs : List Frame) : List Var := fs.flatMap Frame.rvars

/-- number of `fiber_exit n` activations in a stack -/
def exits (n : CtxId) (fs : List Frame) : Nat := fs.count (.exiting n)

/-- mode fits the kind of function -/
def ModeOK : UKind → Mode → Prop
  | _, .normal => True
  | _, .unwinding _ => True
  | .fn, .returning (some _) => True
  | .ontop _, .returning (some _) => True
  | .main, .returning none => True
  | .call, .returning none => True
  | .cleanup, .returning none => True
  | _, _ => False

/-- which frame may lie directly on which stack -/
def Adj : Frame → List Frame → Prop
  | .user .main _ m, rest => ModeOK .main m ∧ rest = []
  | .user .fn _ m, rest => ModeOK .fn m ∧ rest = [.entryRun]
  | .user .call _ m, .user _ _ .normal :: _ => ModeOK .call m
  | .user .cleanup _ m, .user _ _ _ :: _ => ModeOK .cleanup m
  | .user .cleanup _ m, .exiting _ :: _ => ModeOK .cleanup m
  | .user (.ontop i) _ m, .entryJump :: _ => ModeOK (.ontop i) m
  | .user (.ontop i) _ m, .resume :: _ => ModeOK (.ontop i) m
  | .entryJump, [] => True
  | .entryRun, [] => True
  | .resume, .user _ _ .normal :: _ => True
  | .dtor _, .user _ _ _ :: _ => True
  | .dtor _, .exiting _ :: _ => True
  | .exiting _, .entryJump :: _ => True
  | .exiting _, .resume :: _ => True
  | .exiting n, .dtor v :: _ => n = v
  | _, _ => False

def WF : List Frame → Prop
  | [] => True
  | f :: rest => Adj f rest ∧ WF rest

/-- the innermost frame is a suspension point -/
def SuspTop : List Frame → Prop
  | .entryJump :: _ => True
  | .resume :: _ => True
  | .dtor _ :: _ => True
  | _ => False

/-- the innermost frame is executing -/
def RunTop : List Frame → Prop
  | .user _ _ _ :: _ => True
  | .exiting _ :: _ => True
  | _ => False

/-- the innermost frame is a destructor waiting for `v` -/
def DtorTop (v : CtxId) : List Frame → Prop
  | .dtor w :: _ => w = v
  | _ => False

/-- Control part: threads, statuses, call stacks.  `mid` is a context that has just been switched to and has not yet
processed the transfer (`none` between steps). -/
structure CInv (s : State) (mid : Option CtxId) : Prop where
  curRun : ∀ t c, s.cur t = some c ↔ s.status c = .running t
  absent : ∀ c, s.status c = .absent ↔ s.nextCtx ≤ c
  tids : ∀ t, s.nextTid ≤ t → s.cur t = none
  noRaw : ∀ c, s.status c ≠ .raw
  fAbsent : ∀ c, s.status c = .absent → s.frames c = []
  fFreed : ∀ c, s.status c = .freed → s.frames c = []
  fEnded : ∀ c, s.status c = .ended → s.frames c = []
  fTerm : ∀ c, s.status c = .terminated → s.frames c = [.exitJump]
  wf : ∀ c, s.status c ≠ .terminated → WF (s.frames c)
  susp : ∀ c, s.status c = .suspended → SuspTop (s.frames c)
  midTop : ∀ c, mid = some c → SuspTop (s.frames c) ∧ ∃ t, s.status c = .running t
  runTop : ∀ c t, s.status c = .running t → mid ≠ some c → RunTop (s.frames c)
  exitT : ∀ n d, 0 < exits n (s.frames d) → s.status n = .terminated
  exitU : ∀ n d d', 0 < exits n (s.frames d) → 0 < exits n (s.frames d') → d = d'
  exit1 : ∀ n d, exits n (s.frames d) ≤ 1
  exitE : ∀ n, s.status n = .terminated → ∃ d, 0 < exits n (s.frames d)

/-- Object part: every live object has exactly one owner. -/
structure OInv (s : State) : Prop where
  locs : ∀ c x, x ∈ lvars (s.frames c) ↔ s.kind x = .loc c
  excs : ∀ c x, x ∈ evars (s.frames c) ↔ s.kind x = .exc c
  rets : ∀ c x, x ∈ rvars (s.frames c) ↔ s.kind x = .ret c
  capv : ∀ c x, x ∈ s.caps c ↔ s.kind x = .cap c
  locsN : ∀ c, (lvars (s.frames c)).Nodup
  excsN : ∀ c, (evars (s.frames c)).Nodup
  retsN : ∀ c, (rvars (s.frames c)).Nodup
  capsN : ∀ c, (s.caps c).Nodup
  capsF : ∀ c, s.status c = .freed → s.caps c = []
  capsA : ∀ c, s.nextCtx ≤ c → s.caps c = []
  fresh : ∀ x, s.nextVar ≤ x → s.kind x = .dead

/-- Value part: which `fcontext_t` values exist, `r` being those in registers in the middle of a step. -/
structure VInv (s : State) (r : List Fctx) : Prop where
  deadNone : ∀ x, s.kind x = .dead → s.val x = none
  valid : ∀ x f, s.val x = some f → s.status f.ctx = .suspended ∧ s.seq f.ctx = f.seq
  inj : ∀ x y f g, s.val x = some f → s.val y = some g → f.ctx = g.ctx → x = y
  validR : ∀ f ∈ r, s.status f.ctx = .suspended ∧ s.seq f.ctx = f.seq
  disjR : ∀ f ∈ r, ∀ x g, s.val x = some g → g.ctx ≠ f.ctx
  nodupR : (r.map Fctx.ctx).Nodup
  held : ∀ c, s.status c = .suspended → s.lost c = true ∨ (∃ x f, s.val x = some f ∧ f.ctx = c) ∨ ∃ f ∈ r, f.ctx = c
  excTop : ∀ x c f, s.kind x = .exc c → s.val x = some f → DtorTop c (s.frames f.ctx)
  nonExc : ∀ x f, (∀ c, s.kind x ≠ .exc c) → s.val x = some f → ∀ v, ¬ DtorTop v (s.frames f.ctx)
  excSome : ∀ x c, s.kind x = .exc c → s.val x ≠ none
  /-- a lost context stays suspended for ever -/
  lostS : ∀ c, s.lost c = true → s.status c = .suspended ∧
    (∀ x f, s.val x = some f → f.ctx ≠ c) ∧ ∀ f ∈ r, f.ctx ≠ c

/-- The invariant between steps. -/
structure Inv (s : State) : Prop where
  ci : CInv s none
  oi : OInv s
  vi : VInv s []

end Verif.Fiber
