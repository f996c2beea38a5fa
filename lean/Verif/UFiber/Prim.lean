import Verif.UFiber.Inv

/-! # Preservation lemmas for the primitive state changes of the ucontext fiber machine -/

namespace Verif.UFiber
open Verif.Fiber (CtxId Var Tid Kind Exc Mode UKind Frame Status Event Op CreateOutcome upd upd_apply lvars evars rvars exits
  ModeOK SuspTop RunTop DtorTop lvars_nil evars_nil rvars_nil lvars_cons evars_cons rvars_cons exits_nil exits_cons
  dtorTop_iff suspTop_iff runTop_iff modeOK_unwinding modeOK_normal)
open State

/-! ## projections -/
section proj
variable (s : State) (c : CtxId) (fs : List Frame) (x : Var) (v : Option CtxId) (k : Kind) (e : Event)

@[simp] theorem setFrames_cur : (s.setFrames c fs).cur = s.cur := rfl
@[simp] theorem setFrames_status : (s.setFrames c fs).status = s.status := rfl
@[simp] theorem setFrames_frames : (s.setFrames c fs).frames = upd s.frames c fs := rfl
@[simp] theorem setFrames_caps : (s.setFrames c fs).caps = s.caps := rfl
@[simp] theorem setFrames_kind : (s.setFrames c fs).kind = s.kind := rfl
@[simp] theorem setFrames_val : (s.setFrames c fs).val = s.val := rfl
@[simp] theorem setFrames_root : (s.setFrames c fs).root = s.root := rfl
@[simp] theorem setFrames_frm : (s.setFrames c fs).frm = s.frm := rfl
@[simp] theorem setFrames_ontop : (s.setFrames c fs).ontop = s.ontop := rfl
@[simp] theorem setFrames_term : (s.setFrames c fs).term = s.term := rfl
@[simp] theorem setFrames_unw : (s.setFrames c fs).unw = s.unw := rfl
@[simp] theorem setFrames_nextCtx : (s.setFrames c fs).nextCtx = s.nextCtx := rfl
@[simp] theorem setFrames_nextVar : (s.setFrames c fs).nextVar = s.nextVar := rfl
@[simp] theorem setFrames_nextTid : (s.setFrames c fs).nextTid = s.nextTid := rfl
@[simp] theorem setFrames_nextId : (s.setFrames c fs).nextId = s.nextId := rfl
@[simp] theorem setFrames_lost : (s.setFrames c fs).lost = s.lost := rfl
@[simp] theorem setFrames_early : (s.setFrames c fs).early = s.early := rfl
@[simp] theorem setFrames_log : (s.setFrames c fs).log = s.log := rfl

@[simp] theorem setVal_cur : (s.setVal x v).cur = s.cur := rfl
@[simp] theorem setVal_status : (s.setVal x v).status = s.status := rfl
@[simp] theorem setVal_frames : (s.setVal x v).frames = s.frames := rfl
@[simp] theorem setVal_caps : (s.setVal x v).caps = s.caps := rfl
@[simp] theorem setVal_kind : (s.setVal x v).kind = s.kind := rfl
@[simp] theorem setVal_val : (s.setVal x v).val = upd s.val x v := rfl
@[simp] theorem setVal_root : (s.setVal x v).root = s.root := rfl
@[simp] theorem setVal_frm : (s.setVal x v).frm = s.frm := rfl
@[simp] theorem setVal_ontop : (s.setVal x v).ontop = s.ontop := rfl
@[simp] theorem setVal_term : (s.setVal x v).term = s.term := rfl
@[simp] theorem setVal_unw : (s.setVal x v).unw = s.unw := rfl
@[simp] theorem setVal_nextCtx : (s.setVal x v).nextCtx = s.nextCtx := rfl
@[simp] theorem setVal_nextVar : (s.setVal x v).nextVar = s.nextVar := rfl
@[simp] theorem setVal_nextTid : (s.setVal x v).nextTid = s.nextTid := rfl
@[simp] theorem setVal_nextId : (s.setVal x v).nextId = s.nextId := rfl
@[simp] theorem setVal_lost : (s.setVal x v).lost = s.lost := rfl
@[simp] theorem setVal_early : (s.setVal x v).early = s.early := rfl
@[simp] theorem setVal_log : (s.setVal x v).log = s.log := rfl

@[simp] theorem kill_cur : (s.kill x).cur = s.cur := rfl
@[simp] theorem kill_status : (s.kill x).status = s.status := rfl
@[simp] theorem kill_frames : (s.kill x).frames = s.frames := rfl
@[simp] theorem kill_caps : (s.kill x).caps = s.caps := rfl
@[simp] theorem kill_kind : (s.kill x).kind = upd s.kind x .dead := rfl
@[simp] theorem kill_val : (s.kill x).val = upd s.val x none := rfl
@[simp] theorem kill_root : (s.kill x).root = s.root := rfl
@[simp] theorem kill_frm : (s.kill x).frm = s.frm := rfl
@[simp] theorem kill_ontop : (s.kill x).ontop = s.ontop := rfl
@[simp] theorem kill_term : (s.kill x).term = s.term := rfl
@[simp] theorem kill_unw : (s.kill x).unw = s.unw := rfl
@[simp] theorem kill_nextCtx : (s.kill x).nextCtx = s.nextCtx := rfl
@[simp] theorem kill_nextVar : (s.kill x).nextVar = s.nextVar := rfl
@[simp] theorem kill_nextTid : (s.kill x).nextTid = s.nextTid := rfl
@[simp] theorem kill_nextId : (s.kill x).nextId = s.nextId := rfl
@[simp] theorem kill_lost : (s.kill x).lost = s.lost := rfl
@[simp] theorem kill_early : (s.kill x).early = s.early := rfl
@[simp] theorem kill_log : (s.kill x).log = s.log := rfl

@[simp] theorem newVar_cur : (s.newVar k v).cur = s.cur := rfl
@[simp] theorem newVar_status : (s.newVar k v).status = s.status := rfl
@[simp] theorem newVar_frames : (s.newVar k v).frames = s.frames := rfl
@[simp] theorem newVar_caps : (s.newVar k v).caps = s.caps := rfl
@[simp] theorem newVar_kind : (s.newVar k v).kind = upd s.kind s.nextVar k := rfl
@[simp] theorem newVar_val : (s.newVar k v).val = upd s.val s.nextVar v := rfl
@[simp] theorem newVar_root : (s.newVar k v).root = s.root := rfl
@[simp] theorem newVar_frm : (s.newVar k v).frm = s.frm := rfl
@[simp] theorem newVar_ontop : (s.newVar k v).ontop = s.ontop := rfl
@[simp] theorem newVar_term : (s.newVar k v).term = s.term := rfl
@[simp] theorem newVar_unw : (s.newVar k v).unw = s.unw := rfl
@[simp] theorem newVar_nextCtx : (s.newVar k v).nextCtx = s.nextCtx := rfl
@[simp] theorem newVar_nextVar : (s.newVar k v).nextVar = s.nextVar + 1 := rfl
@[simp] theorem newVar_nextTid : (s.newVar k v).nextTid = s.nextTid := rfl
@[simp] theorem newVar_nextId : (s.newVar k v).nextId = s.nextId := rfl
@[simp] theorem newVar_lost : (s.newVar k v).lost = s.lost := rfl
@[simp] theorem newVar_early : (s.newVar k v).early = s.early := rfl
@[simp] theorem newVar_log : (s.newVar k v).log = s.log := rfl

@[simp] theorem addLog_cur : (s.addLog e).cur = s.cur := rfl
@[simp] theorem addLog_status : (s.addLog e).status = s.status := rfl
@[simp] theorem addLog_frames : (s.addLog e).frames = s.frames := rfl
@[simp] theorem addLog_caps : (s.addLog e).caps = s.caps := rfl
@[simp] theorem addLog_kind : (s.addLog e).kind = s.kind := rfl
@[simp] theorem addLog_val : (s.addLog e).val = s.val := rfl
@[simp] theorem addLog_root : (s.addLog e).root = s.root := rfl
@[simp] theorem addLog_frm : (s.addLog e).frm = s.frm := rfl
@[simp] theorem addLog_ontop : (s.addLog e).ontop = s.ontop := rfl
@[simp] theorem addLog_term : (s.addLog e).term = s.term := rfl
@[simp] theorem addLog_unw : (s.addLog e).unw = s.unw := rfl
@[simp] theorem addLog_nextCtx : (s.addLog e).nextCtx = s.nextCtx := rfl
@[simp] theorem addLog_nextVar : (s.addLog e).nextVar = s.nextVar := rfl
@[simp] theorem addLog_nextTid : (s.addLog e).nextTid = s.nextTid := rfl
@[simp] theorem addLog_nextId : (s.addLog e).nextId = s.nextId := rfl
@[simp] theorem addLog_lost : (s.addLog e).lost = s.lost := rfl
@[simp] theorem addLog_early : (s.addLog e).early = s.early := rfl
@[simp] theorem addLog_log : (s.addLog e).log = e :: s.log := rfl
end proj

attribute [simp, grind] Frame.lvars Frame.evars Frame.rvars

/-! ## control part -/

/-- The control part only reads these components. -/
theorem CInv.congr {s s' : State} {m} (h : CInv s m) (h1 : s'.cur = s.cur) (h2 : s'.status = s.status)
    (h3 : s'.frames = s.frames) (h4 : s'.nextCtx = s.nextCtx) (h5 : s'.nextTid = s.nextTid) (h6 : s'.term = s.term) :
    CInv s' m := by
  obtain ⟨a,b,c,d,e,f,q,g,i,j,k,l,m,n,o,p⟩ := h
  constructor <;> (try simp only [h1, h2, h3, h4, h5, h6]) <;> assumption

theorem CInv.setFrames {s : State} {m c t} (h : CInv s m) (hc : s.status c = .running t) (hm : m = none ∨ m = some c)
    {fs} (hw : WF fs) (ht : RunTop fs) (he : ∀ n, exits n fs = exits n (s.frames c)) :
    CInv (s.setFrames c fs) none := by
  obtain ⟨a1,a2,a3,a4,a5,a6,a0,a7,a8,a9,a10,a11,a12,a13,a14,a15⟩ := h
  constructor <;> try simp only [setFrames_cur, setFrames_status, setFrames_nextCtx, setFrames_nextTid, setFrames_frames,
    setFrames_term, upd_apply]
  all_goals first | assumption | grind

/-- push a suspension frame on the running context and switch to a suspended one -/
theorem CInv.pushSwitch {s : State} {c t w fr} (h : CInv s none) (hc : s.cur t = some c)
    (hf : s.status w = .suspended) (hfr : SuspTop [fr]) (hw : Adj fr (s.frames c)) {q} :
    CInv { s with cur := upd s.cur t (some w), status := upd (upd s.status c .suspended) w (.running t),
                  frames := upd s.frames c (fr :: s.frames c), frm := q } (some w) := by
  have hcs := (h.curRun t c).1 hc
  have hcf : c ≠ w := by rintro rfl; simp [hcs] at hf
  have hx : ∀ n, fr ≠ .exiting n := by rintro n rfl; simp [SuspTop] at hfr
  have hst : SuspTop (fr :: s.frames c) := by revert hfr; cases fr <;> simp [SuspTop]
  obtain ⟨a1,a2,a3,a4,a5,a6,a0,a7,a8,a9,a10,a11,a12,a13,a14,a15⟩ := h
  constructor <;> try simp only [upd_apply]
  case wf => intro d; grind [WF]
  all_goals first | assumption | grind

/-- context `c` ends and leaves its stack for good -/
theorem CInv.finish {s : State} {c t w} (h : CInv s none) (hc : s.cur t = some c)
    (hf : s.status w = .suspended) (hx : ∀ n, exits n (s.frames c) = 0) {q o u} :
    CInv { s with cur := upd s.cur t (some w), status := upd (upd s.status c .terminated) w (.running t),
                  frames := upd s.frames c [.exitJump], frm := q, ontop := o, unw := u, term := upd s.term c true } (some w) := by
  have hcs := (h.curRun t c).1 hc
  have hcf : c ≠ w := by rintro rfl; simp [hcs] at hf
  have h0 : ∀ d, exits c (s.frames d) = 0 := by
    intro d
    have := h.exitT c d
    grind
  obtain ⟨a1,a2,a3,a4,a5,a6,a0,a7,a8,a9,a10,a11,a12,a13,a14,a15⟩ := h
  constructor <;> try simp only [upd_apply]
  case wf => intro d; grind [WF]
  all_goals first | assumption | grind

/-- the running context begins to release the finished fiber `n` -/
theorem CInv.pushExit {s : State} {m c t n} (h : CInv s m) (hc : s.status c = .running t) (hm : m = none ∨ m = some c)
    (hn : s.status n = .terminated) (hx : ∀ d, exits n (s.frames d) = 0) (hw : Adj (.exiting n) (s.frames c)) :
    CInv (s.setFrames c (.exiting n :: s.frames c)) none := by
  obtain ⟨a1,a2,a3,a4,a5,a6,a0,a7,a8,a9,a10,a11,a12,a13,a14,a15⟩ := h
  constructor <;> try simp only [setFrames_cur, setFrames_status, setFrames_nextCtx, setFrames_nextTid, setFrames_frames,
    setFrames_term, upd_apply]
  case wf => intro d; grind [WF]
  case runTop => intro d; grind [RunTop]
  case exitU => intro n d d'; have := a13 n d d'; grind
  case exit1 => intro n d; have := a14 n d; grind
  all_goals first | assumption | grind

/-- `deallocate()` of `n`, running on `c`, has released the stack of `n`; `~fiber` returns -/
theorem CInv.free {s : State} {c t n rest rest'} (h : CInv s none) (hc : s.status c = .running t)
    (hfr : s.frames c = .exiting n :: rest) (hr : rest' = rest ∨ ∃ v, rest = .dtor v :: rest') (ht : RunTop rest') {lg} :
    CInv { s with status := upd s.status n .freed, frames := upd (upd s.frames n []) c rest', log := lg } none := by
  have hn : s.status n = .terminated := h.exitT n c (by simp [hfr])
  have hw := h.wf c (by simp [hc])
  rw [hfr] at hw
  have hw' : WF rest' := by
    rcases hr with rfl | ⟨v, rfl⟩
    · exact hw.2
    · exact hw.2.2
  have hnc : n ≠ c := by rintro rfl; simp [hc] at hn
  have hrr : ∀ n', exits n' rest' = exits n' rest := by rcases hr with rfl | ⟨v, rfl⟩ <;> simp
  have h1 : exits n rest' = 0 := by have := h.exit1 n c; rw [hfr] at this; simp at this; rw [hrr]; omega
  have h2 : ∀ d, d ≠ c → exits n (s.frames d) = 0 := by
    intro d hd
    have := h.exitU n d c
    rw [hfr] at this
    grind
  have h3 : ∀ n', n' ≠ n → exits n' rest' = exits n' (s.frames c) := by
    intro n' hn'; rw [hrr, hfr]; simp; intro h; exact absurd h.symm hn'
  obtain ⟨a1,a2,a3,a4,a5,a6,a0,a7,a8,a9,a10,a11,a12,a13,a14,a15⟩ := h
  constructor <;> try simp only [upd_apply]
  case wf => intro d; grind [WF]
  case exit1 =>
    intro n' d
    have := a14 n' d
    grind
  all_goals first | assumption | grind

/-- a new fiber has been created -/
theorem CInv.create {s : State} (h : CInv s none) {q r o u} :
    CInv { s with status := upd s.status s.nextCtx .suspended, frames := upd s.frames s.nextCtx [.entryJump],
                  nextCtx := s.nextCtx + 1, frm := q, root := r, ontop := o, unw := u,
                  term := upd s.term s.nextCtx false } none := by
  have h0 := (h.absent s.nextCtx).2 (Nat.le_refl _)
  have h1 := h.fAbsent _ h0
  obtain ⟨a1,a2,a3,a4,a5,a6,a0,a7,a8,a9,a10,a11,a12,a13,a14,a15⟩ := h
  constructor <;> try simp only [upd_apply]
  case wf => intro d; grind [WF, Adj]
  case susp => intro d; grind [SuspTop]
  case absent => intro c; have := a2 c; grind
  all_goals first | assumption | grind

theorem CInv.spawn {s : State} (h : CInv s none) {q r o u} :
    CInv { s with cur := upd s.cur s.nextTid (some s.nextCtx), status := upd s.status s.nextCtx (.running s.nextTid),
                  frames := upd s.frames s.nextCtx [.user .main [] .normal], root := r, frm := q, ontop := o,
                  term := upd s.term s.nextCtx false, unw := u,
                  nextCtx := s.nextCtx + 1, nextTid := s.nextTid + 1 } none := by
  have h0 := (h.absent s.nextCtx).2 (Nat.le_refl _)
  have h1 := h.fAbsent _ h0
  have h2 := h.tids _ (Nat.le_refl _)
  obtain ⟨a1,a2,a3,a4,a5,a6,a0,a7,a8,a9,a10,a11,a12,a13,a14,a15⟩ := h
  constructor <;> try simp only [upd_apply]
  case wf => intro d; grind [WF, Adj, ModeOK]
  case runTop => intro d; grind [RunTop]
  case absent => intro c; have := a2 c; grind
  case curRun => intro t c; have := a1 t c; grind
  case tids => intro t; have := a3 t; grind
  all_goals first | assumption | grind

theorem CInv.threadExit {s : State} {t c ls m} (h : CInv s none) (hc : s.cur t = some c)
    (hf : s.frames c = [.user .main ls m]) :
    CInv { s with cur := upd s.cur t none, status := upd s.status c .ended, frames := upd s.frames c [] } none := by
  have hcs := (h.curRun t c).1 hc
  obtain ⟨a1,a2,a3,a4,a5,a6,a0,a7,a8,a9,a10,a11,a12,a13,a14,a15⟩ := h
  constructor <;> try simp only [upd_apply]
  case wf => intro d; grind [WF, Adj]
  case curRun => intro t' c'; have := a1 t' c'; have := a1 t' c; grind
  all_goals first | assumption | grind

/-! ## value part -/

theorem VInv.congr {s s' : State} {r} (h : VInv s r) (h1 : s'.val = s.val) (h2 : s'.status = s.status)
    (h3 : s'.frames = s.frames) (h4 : s'.kind = s.kind) (h6 : s'.lost = s.lost) : VInv s' r := by
  obtain ⟨a1,a2,a3,a4,a5,a6,a7,a8,a9,a10,a11⟩ := h
  constructor <;> (try simp only [PtrOK, h1, h2, h3, h4, h6] at *) <;> assumption

theorem VInv.setFrames {s : State} {r c t} (h : VInv s r) (hc : s.status c = .running t) {fs}
    (he : ∀ n, exits n fs = exits n (s.frames c)) : VInv (s.setFrames c fs) r := by
  obtain ⟨a1,a2,a3,a4,a5,a6,a7,a8,a9,a10,a11⟩ := h
  have he' : ∀ n d, exits n (if d = c then fs else s.frames d) = exits n (s.frames d) := by intro n d; split <;> simp_all
  constructor <;> try simp only [PtrOK, setFrames_kind, setFrames_status, setFrames_val, setFrames_lost, setFrames_frames, upd_apply, he'] at *
  all_goals first | assumption | grind

/-- push a suspension frame on the running context and switch to the context of register `w` -/
theorem VInv.pushSwitch {s : State} {r c t w fr} (h : VInv s (w :: r)) (hcs : s.status c = .running t)
    (hws : s.status w = .suspended)
    (hx : ∀ n, fr ≠ .exiting n) (h0 : ∀ d, exits c (s.frames d) = 0) {cu q} :
    VInv { s with cur := cu, status := upd (upd s.status c .suspended) w (.running t),
                  frames := upd s.frames c (fr :: s.frames c), frm := q } (c :: r) := by
  obtain ⟨a1,a2,a3,a4,a5,a6,a7,a8,a9,a10,a11⟩ := h
  have hcf : c ≠ w := by rintro rfl; simp [hcs] at hws
  have he' : ∀ n d, exits n (if d = c then fr :: s.frames c else s.frames d) = exits n (s.frames d) := by
    intro n d; split <;> simp_all
  simp only [List.nodup_cons] at a6
  constructor <;> try simp only [PtrOK, upd_apply, List.nodup_cons, List.mem_cons, he'] at *
  case held =>
    intro d hd
    have := a7 d
    grind
  all_goals first | assumption | grind

theorem VInv.finish {s : State} {c t w r} (h : VInv s (w :: r)) (hcs : s.status c = .running t)
    (hws : s.status w = .suspended) (hx : ∀ n, exits n (s.frames c) = 0) (h0 : ∀ d, exits c (s.frames d) = 0) {cu q o u m} :
    VInv { s with cur := cu, status := upd (upd s.status c .terminated) w (.running t),
                  frames := upd s.frames c [.exitJump], frm := q, ontop := o, unw := u, term := m } (c :: r) := by
  obtain ⟨a1,a2,a3,a4,a5,a6,a7,a8,a9,a10,a11⟩ := h
  have hcf : c ≠ w := by rintro rfl; simp [hcs] at hws
  have he' : ∀ n d, exits n (if d = c then [Frame.exitJump] else s.frames d) = exits n (s.frames d) := by
    intro n d; split
    · simp_all
    · rfl
  simp only [List.nodup_cons] at a6
  constructor <;> try simp only [PtrOK, upd_apply, List.nodup_cons, List.mem_cons, he'] at *
  case held =>
    intro d hd
    have := a7 d
    grind
  all_goals first | assumption | grind

/-- the running context begins to release the finished fiber in the register -/
theorem VInv.pushExit {s : State} {r c t n} (h : VInv s (n :: r)) (hc : s.status c = .running t) :
    VInv (s.setFrames c (.exiting n :: s.frames c)) r := by
  obtain ⟨a1,a2,a3,a4,a5,a6,a7,a8,a9,a10,a11⟩ := h
  simp only [List.nodup_cons] at a6
  have hex : ∀ n' d, n' ≠ n → exits n' (if d = c then Frame.exiting n :: s.frames c else s.frames d) = exits n' (s.frames d) := by
    intro n' d hn; split
    · simp_all; intro h; exact absurd h.symm hn
    · rfl
  constructor <;> try simp only [PtrOK, setFrames_kind, setFrames_status, setFrames_val, setFrames_lost, setFrames_frames, upd_apply] at *
  case held =>
    intro d hd
    rcases a7 d hd with h | h | h | ⟨e, h⟩
    · exact Or.inl h
    · exact Or.inr (Or.inl h)
    · simp only [List.mem_cons] at h
      rcases h with rfl | h
      · exact Or.inr (Or.inr (Or.inr ⟨c, by simp⟩))
      · exact Or.inr (Or.inr (Or.inl h))
    · refine Or.inr (Or.inr (Or.inr ⟨e, ?_⟩))
      by_cases hec : e = c
      · subst hec; rw [if_pos rfl, exits_cons]; omega
      · rw [if_neg hec]; exact h
  all_goals first | assumption | grind

/-- moving the value of a live object into a register -/
theorem VInv.take {s : State} {r x w} (h : VInv s r) (hx : s.val x = some w) (hk : ∀ c, s.kind x ≠ .exc c) :
    VInv (s.setVal x none) (w :: r) := by
  obtain ⟨a1,a2,a3,a4,a5,a6,a7,a8,a9,a10,a11⟩ := h
  constructor <;> try simp only [PtrOK, setVal_kind, setVal_status, setVal_val, setVal_lost, setVal_frames, upd_apply, List.nodup_cons, List.mem_cons] at *
  case held =>
    intro d hd
    rcases a7 d hd with h | ⟨y, h⟩ | h | h
    · exact Or.inl h
    · by_cases hyx : y = x
      · grind
      · exact Or.inr (Or.inl ⟨y, by grind⟩)
    · grind
    · exact Or.inr (Or.inr (Or.inr h))
  all_goals first | assumption | grind

theorem VInv.setNone {s : State} {r x} (h : VInv s r) (hx : s.val x = none) : VInv (s.setVal x none) r := by
  have : upd s.val x none = s.val := by funext y; simp; grind
  exact h.congr (by simp [this]) rfl rfl rfl rfl

/-- an object dies, its value (if any) goes to a register -/
theorem VInv.killSome {s : State} {r x w} (h : VInv s r) (hx : s.val x = some w) : VInv (s.kill x) (w :: r) := by
  obtain ⟨a1,a2,a3,a4,a5,a6,a7,a8,a9,a10,a11⟩ := h
  constructor <;> try simp only [PtrOK, upd_apply, List.nodup_cons, List.mem_cons, kill_val, kill_status, kill_frames, kill_kind, kill_lost] at *
  case held =>
    intro d hd
    rcases a7 d hd with h | ⟨y, h⟩ | h | h
    · exact Or.inl h
    · by_cases hyx : y = x
      · grind
      · exact Or.inr (Or.inl ⟨y, by grind⟩)
    · grind
    · exact Or.inr (Or.inr (Or.inr h))
  all_goals first | assumption | grind

theorem VInv.killNone {s : State} {r x} (h : VInv s r) (hx : s.val x = none) : VInv (s.kill x) r := by
  obtain ⟨a1,a2,a3,a4,a5,a6,a7,a8,a9,a10,a11⟩ := h
  constructor <;> try simp only [PtrOK, upd_apply, kill_val, kill_status, kill_frames, kill_kind, kill_lost] at *
  case held =>
    intro d hd
    rcases a7 d hd with h | ⟨y, h⟩ | h | h
    · exact Or.inl h
    · exact Or.inr (Or.inl ⟨y, by grind⟩)
    · grind
    · exact Or.inr (Or.inr (Or.inr h))
  all_goals first | assumption | grind

/-- an empty object receives a register -/
theorem VInv.put {s : State} {r x w} (h : VInv s (w :: r)) (hx : s.val x = none) (hd : s.kind x ≠ .dead)
    (hk : ∀ c, s.kind x ≠ .exc c) (ht : ∀ v, ¬ DtorTop v (s.frames w)) : VInv (s.setVal x (some w)) r := by
  obtain ⟨a1,a2,a3,a4,a5,a6,a7,a8,a9,a10,a11⟩ := h
  simp only [List.nodup_cons] at a6
  constructor <;> try simp only [PtrOK, upd_apply, setVal_val, setVal_status, setVal_frames, setVal_kind, setVal_lost] at *
  case held =>
    intro d hd
    rcases a7 d hd with h | ⟨y, h⟩ | h | h
    · exact Or.inl h
    · exact Or.inr (Or.inl ⟨y, by grind⟩)
    · simp at h
      rcases h with rfl | h
      · exact Or.inr (Or.inl ⟨x, by grind⟩)
      · grind
    · exact Or.inr (Or.inr (Or.inr h))
  all_goals first | assumption | grind

theorem VInv.newVar {s : State} {r k} (h : VInv s r) (ho : s.kind s.nextVar = .dead) (hk : ∀ c, k ≠ .exc c) :
    VInv (s.newVar k none) r := by
  have hn := h.deadNone _ ho
  obtain ⟨a1,a2,a3,a4,a5,a6,a7,a8,a9,a10,a11⟩ := h
  constructor <;> try simp only [PtrOK, upd_apply, newVar_val, newVar_status, newVar_frames, newVar_kind, newVar_lost] at *
  case held =>
    intro d hd
    rcases a7 d hd with h | ⟨y, h⟩ | h | h
    · exact Or.inl h
    · exact Or.inr (Or.inl ⟨y, by grind⟩)
    · grind
    · exact Or.inr (Or.inr (Or.inr h))
  all_goals first | assumption | grind

theorem VInv.newVarSome {s : State} {r k w} (h : VInv s (w :: r)) (ho : s.kind s.nextVar = .dead) (hd : k ≠ .dead)
    (hk : ∀ c v, k = .exc c → DtorTop v (s.frames w) → v = c)
    (ht : (∀ c, k ≠ .exc c) → ∀ v, ¬ DtorTop v (s.frames w)) : VInv (s.newVar k (some w)) r := by
  have hn := h.deadNone _ ho
  obtain ⟨a1,a2,a3,a4,a5,a6,a7,a8,a9,a10,a11⟩ := h
  simp only [List.nodup_cons] at a6
  constructor <;> try simp only [PtrOK, upd_apply, newVar_val, newVar_status, newVar_frames, newVar_kind, newVar_lost] at *
  case held =>
    intro d hd
    rcases a7 d hd with h | ⟨y, h⟩ | h | h
    · exact Or.inl h
    · exact Or.inr (Or.inl ⟨y, by grind⟩)
    · simp at h
      rcases h with rfl | h
      · exact Or.inr (Or.inl ⟨s.nextVar, by grind⟩)
      · grind
    · exact Or.inr (Or.inr (Or.inr h))
  all_goals first | assumption | grind

/-- the register is dropped: the context is lost -/
theorem VInv.lose {s : State} {r w} (h : VInv s (w :: r)) : VInv { s with lost := upd s.lost w true } r := by
  obtain ⟨a1,a2,a3,a4,a5,a6,a7,a8,a9,a10,a11⟩ := h
  simp only [List.nodup_cons] at a6
  constructor <;> try simp only [PtrOK, upd_apply] at *
  case held =>
    intro d hd
    have := a7 d
    grind
  all_goals first | assumption | grind

/-- statuses of contexts that are neither suspended nor finished may change among themselves, together with their stacks -/
theorem VInv.status {s s' : State} {r} (h : VInv s r) (h1 : s'.val = s.val) (h4 : s'.kind = s.kind)
    (h6 : s'.lost = s.lost)
    (hs : ∀ c, s'.status c = .suspended ↔ s.status c = .suspended)
    (hs' : ∀ c, s'.status c = .terminated ↔ s.status c = .terminated)
    (hx : ∀ n d, exits n (s'.frames d) = exits n (s.frames d))
    (hf : ∀ c, s.status c = .suspended ∨ s.status c = .terminated → s'.frames c = s.frames c) : VInv s' r := by
  obtain ⟨a1,a2,a3,a4,a5,a6,a7,a8,a9,a10,a11⟩ := h
  constructor <;> try simp only [PtrOK, h1, h4, h6, hs, hs', hx] at *
  all_goals first | assumption | grind

/-- the finished fiber `n` has been released by `c` -/
theorem VInv.free {s : State} {c t n rest rest'} (h : VInv s []) (hc : s.status c = .running t)
    (hfr : s.frames c = .exiting n :: rest) (hn : s.status n = .terminated)
    (hrr : ∀ n', exits n' rest' = exits n' rest) {lg} (hfn : ∀ n', exits n' (s.frames n) = 0) :
    VInv { s with status := upd s.status n .freed, frames := upd (upd s.frames n []) c rest', log := lg } [] := by
  have hnc : n ≠ c := by rintro rfl; simp [hc] at hn
  obtain ⟨a1,a2,a3,a4,a5,a6,a7,a8,a9,a10,a11⟩ := h
  have h3 : ∀ n', n' ≠ n → exits n' rest' = exits n' (s.frames c) := by
    intro n' hn'; rw [hrr, hfr]; simp; intro h; exact absurd h.symm hn'
  have he : ∀ n' d, n' ≠ n → exits n' (if d = c then rest' else if d = n then [] else s.frames d) = exits n' (s.frames d) := by
    intro n' d hn'; split
    · simp_all
    · split
      · simp_all
      · rfl
  have hv : ∀ x, s.val x ≠ some n := by
    intro x hx
    have := (a2 x n hx).2 c
    simp [hfr] at this
  have hl : s.lost n = false := by
    cases hl : s.lost n with
    | false => rfl
    | true => have := (a11 _ hl).1.2 c; simp [hfr] at this
  constructor <;> try simp only [PtrOK, upd_apply] at *
  case held =>
    intro d hd
    have hdn : d ≠ n := by grind
    rcases a7 d (by grind) with h | h | h | ⟨e, h⟩
    · exact Or.inl h
    · exact Or.inr (Or.inl h)
    · simp at h
    · exact Or.inr (Or.inr (Or.inr ⟨e, by rw [he d e hdn]; exact h⟩))
  all_goals first | assumption | grind

/-- a new suspended context, its record in a register -/
theorem VInv.create {s : State} {r n} (h : VInv s r) (hn : s.status n = .absent) (hx : ∀ d, exits n (s.frames d) = 0)
    (hf : s.frames n = []) {nc q ro o u m} :
    VInv { s with status := upd s.status n .suspended, frames := upd s.frames n [.entryJump], nextCtx := nc, root := ro,
                  frm := q, ontop := o, term := m, unw := u } (n :: r) := by
  obtain ⟨a1,a2,a3,a4,a5,a6,a7,a8,a9,a10,a11⟩ := h
  have hv : ∀ x, s.val x ≠ some n := by intro x hx; have := (a2 x n hx).1; simp [hn] at this
  have hvr : n ∉ r := by intro hx; have := (a4 n hx).1; simp [hn] at this
  have hl : s.lost n = false := by
    cases hl : s.lost n with
    | false => rfl
    | true => have := (a11 _ hl).1.1; simp [hn] at this
  have he' : ∀ n' d, exits n' (if d = n then [Frame.entryJump] else s.frames d) = exits n' (s.frames d) := by
    intro n d; split <;> simp_all
  constructor <;> try simp only [PtrOK, upd_apply, List.nodup_cons, List.mem_cons, he'] at *
  case held =>
    intro d hd
    have := a7 d
    grind
  case nonExc => intro x w hk hx v; have := a9 x w hk hx v; grind [DtorTop]
  all_goals first | assumption | grind

end Verif.UFiber
