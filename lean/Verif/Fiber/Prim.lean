import Verif.Fiber.Inv

/-! # Preservation lemmas for the primitive state changes of the fiber machine -/

namespace Verif.Fiber
open State

/-! ## projections -/
section proj
variable (s : State) (c : CtxId) (fs : List Frame) (x : Var) (v : Option Fctx) (k : Kind) (e : Event)

@[simp] theorem setFrames_cur : (s.setFrames c fs).cur = s.cur := rfl
@[simp] theorem setFrames_status : (s.setFrames c fs).status = s.status := rfl
@[simp] theorem setFrames_seq : (s.setFrames c fs).seq = s.seq := rfl
@[simp] theorem setFrames_frames : (s.setFrames c fs).frames = upd s.frames c fs := rfl
@[simp] theorem setFrames_caps : (s.setFrames c fs).caps = s.caps := rfl
@[simp] theorem setFrames_kind : (s.setFrames c fs).kind = s.kind := rfl
@[simp] theorem setFrames_val : (s.setFrames c fs).val = s.val := rfl
@[simp] theorem setFrames_nextCtx : (s.setFrames c fs).nextCtx = s.nextCtx := rfl
@[simp] theorem setFrames_nextVar : (s.setFrames c fs).nextVar = s.nextVar := rfl
@[simp] theorem setFrames_nextTid : (s.setFrames c fs).nextTid = s.nextTid := rfl
@[simp] theorem setFrames_lost : (s.setFrames c fs).lost = s.lost := rfl
@[simp] theorem setFrames_log : (s.setFrames c fs).log = s.log := rfl
@[simp] theorem setFrames_nextId : (s.setFrames c fs).nextId = s.nextId := rfl

@[simp] theorem setVal_cur : (s.setVal x v).cur = s.cur := rfl
@[simp] theorem setVal_status : (s.setVal x v).status = s.status := rfl
@[simp] theorem setVal_seq : (s.setVal x v).seq = s.seq := rfl
@[simp] theorem setVal_frames : (s.setVal x v).frames = s.frames := rfl
@[simp] theorem setVal_caps : (s.setVal x v).caps = s.caps := rfl
@[simp] theorem setVal_kind : (s.setVal x v).kind = s.kind := rfl
@[simp] theorem setVal_val : (s.setVal x v).val = upd s.val x v := rfl
@[simp] theorem setVal_nextCtx : (s.setVal x v).nextCtx = s.nextCtx := rfl
@[simp] theorem setVal_nextVar : (s.setVal x v).nextVar = s.nextVar := rfl
@[simp] theorem setVal_nextTid : (s.setVal x v).nextTid = s.nextTid := rfl
@[simp] theorem setVal_lost : (s.setVal x v).lost = s.lost := rfl
@[simp] theorem setVal_log : (s.setVal x v).log = s.log := rfl
@[simp] theorem setVal_nextId : (s.setVal x v).nextId = s.nextId := rfl

@[simp] theorem kill_cur : (s.kill x).cur = s.cur := rfl
@[simp] theorem kill_status : (s.kill x).status = s.status := rfl
@[simp] theorem kill_seq : (s.kill x).seq = s.seq := rfl
@[simp] theorem kill_frames : (s.kill x).frames = s.frames := rfl
@[simp] theorem kill_caps : (s.kill x).caps = s.caps := rfl
@[simp] theorem kill_kind : (s.kill x).kind = upd s.kind x .dead := rfl
@[simp] theorem kill_val : (s.kill x).val = upd s.val x none := rfl
@[simp] theorem kill_nextCtx : (s.kill x).nextCtx = s.nextCtx := rfl
@[simp] theorem kill_nextVar : (s.kill x).nextVar = s.nextVar := rfl
@[simp] theorem kill_nextTid : (s.kill x).nextTid = s.nextTid := rfl
@[simp] theorem kill_lost : (s.kill x).lost = s.lost := rfl
@[simp] theorem kill_log : (s.kill x).log = s.log := rfl
@[simp] theorem kill_nextId : (s.kill x).nextId = s.nextId := rfl

@[simp] theorem newVar_cur : (s.newVar k v).cur = s.cur := rfl
@[simp] theorem newVar_status : (s.newVar k v).status = s.status := rfl
@[simp] theorem newVar_seq : (s.newVar k v).seq = s.seq := rfl
@[simp] theorem newVar_frames : (s.newVar k v).frames = s.frames := rfl
@[simp] theorem newVar_caps : (s.newVar k v).caps = s.caps := rfl
@[simp] theorem newVar_kind : (s.newVar k v).kind = upd s.kind s.nextVar k := rfl
@[simp] theorem newVar_val : (s.newVar k v).val = upd s.val s.nextVar v := rfl
@[simp] theorem newVar_nextCtx : (s.newVar k v).nextCtx = s.nextCtx := rfl
@[simp] theorem newVar_nextVar : (s.newVar k v).nextVar = s.nextVar + 1 := rfl
@[simp] theorem newVar_nextTid : (s.newVar k v).nextTid = s.nextTid := rfl
@[simp] theorem newVar_lost : (s.newVar k v).lost = s.lost := rfl
@[simp] theorem newVar_log : (s.newVar k v).log = s.log := rfl
@[simp] theorem newVar_nextId : (s.newVar k v).nextId = s.nextId := rfl

@[simp] theorem addLog_cur : (s.addLog e).cur = s.cur := rfl
@[simp] theorem addLog_status : (s.addLog e).status = s.status := rfl
@[simp] theorem addLog_seq : (s.addLog e).seq = s.seq := rfl
@[simp] theorem addLog_frames : (s.addLog e).frames = s.frames := rfl
@[simp] theorem addLog_caps : (s.addLog e).caps = s.caps := rfl
@[simp] theorem addLog_kind : (s.addLog e).kind = s.kind := rfl
@[simp] theorem addLog_val : (s.addLog e).val = s.val := rfl
@[simp] theorem addLog_nextCtx : (s.addLog e).nextCtx = s.nextCtx := rfl
@[simp] theorem addLog_nextVar : (s.addLog e).nextVar = s.nextVar := rfl
@[simp] theorem addLog_nextTid : (s.addLog e).nextTid = s.nextTid := rfl
@[simp] theorem addLog_lost : (s.addLog e).lost = s.lost := rfl
@[simp] theorem addLog_log : (s.addLog e).log = e :: s.log := rfl
@[simp] theorem addLog_nextId : (s.addLog e).nextId = s.nextId := rfl
end proj

/-! ## vars of stacks -/
@[simp, grind =] theorem lvars_nil : lvars [] = [] := rfl
@[simp, grind =] theorem evars_nil : evars [] = [] := rfl
@[simp, grind =] theorem rvars_nil : rvars [] = [] := rfl
@[simp, grind =] theorem lvars_cons (f fs) : lvars (f :: fs) = f.lvars ++ lvars fs := rfl
@[simp, grind =] theorem evars_cons (f fs) : evars (f :: fs) = f.evars ++ evars fs := rfl
@[simp, grind =] theorem rvars_cons (f fs) : rvars (f :: fs) = f.rvars ++ rvars fs := rfl
attribute [simp, grind] Frame.lvars Frame.evars Frame.rvars
@[simp, grind =] theorem exits_nil (n) : exits n [] = 0 := rfl
@[simp, grind =] theorem exits_cons (n f fs) : exits n (f :: fs) = exits n fs + if f = .exiting n then 1 else 0 := by
  simp [exits, List.count_cons]

/-! ## control part -/

/-- The control part only reads these components. -/
theorem CInv.congr {s s' : State} {m} (h : CInv s m) (h1 : s'.cur = s.cur) (h2 : s'.status = s.status)
    (h3 : s'.frames = s.frames) (h4 : s'.nextCtx = s.nextCtx) (h5 : s'.nextTid = s.nextTid) : CInv s' m := by
  obtain ⟨a,b,c,d,e,f,q,g,i,j,k,l,m,n,o,p⟩ := h
  constructor <;> (try simp only [h1, h2, h3, h4, h5]) <;> assumption

theorem CInv.setFrames {s : State} {m c t} (h : CInv s m) (hc : s.status c = .running t) (hm : m = none ∨ m = some c)
    {fs} (hw : WF fs) (ht : RunTop fs) (he : ∀ n, exits n fs = exits n (s.frames c)) :
    CInv (s.setFrames c fs) none := by
  obtain ⟨a1,a2,a3,a4,a5,a6,a0,a7,a8,a9,a10,a11,a12,a13,a14,a15⟩ := h
  constructor <;> try simp only [setFrames_cur, setFrames_status, setFrames_nextCtx, setFrames_nextTid, setFrames_frames, upd_apply]
  all_goals first | assumption | grind

/-- push a suspension frame on the running context and switch to a suspended one -/
theorem CInv.pushSwitch {s : State} {c t f fr} (h : CInv s none) (hc : s.cur t = some c)
    (hf : s.status f = .suspended) (hfr : SuspTop [fr]) (hw : Adj fr (s.frames c)) {q} :
    CInv { s with cur := upd s.cur t (some f), status := upd (upd s.status c .suspended) f (.running t),
                  frames := upd s.frames c (fr :: s.frames c), seq := q } (some f) := by
  have hcs := (h.curRun t c).1 hc
  have hcf : c ≠ f := by rintro rfl; simp [hcs] at hf
  have hx : ∀ n, fr ≠ .exiting n := by rintro n rfl; simp [SuspTop] at hfr
  have hst : SuspTop (fr :: s.frames c) := by revert hfr; cases fr <;> simp [SuspTop]
  obtain ⟨a1,a2,a3,a4,a5,a6,a0,a7,a8,a9,a10,a11,a12,a13,a14,a15⟩ := h
  constructor <;> try simp only [upd_apply]
  case wf => intro d; grind [WF]
  case exitE => 
    intro n hn
    have := a15 n (by grind)
    grind
  all_goals first | assumption | grind


/-- context `c` ends: leaves its stack for good and runs `fiber_exit` on top of `f` -/
theorem CInv.finish {s : State} {c t f m} (h : CInv s m) (hm : m = none ∨ m = some c) (hc : s.cur t = some c)
    (hf : s.status f = .suspended) (hx : ∀ n, exits n (s.frames c) = 0)
    (hw : Adj (.exiting c) (s.frames f)) {q} :
    CInv { s with cur := upd s.cur t (some f), status := upd (upd s.status c .terminated) f (.running t),
                  frames := upd (upd s.frames c [.exitJump]) f (.exiting c :: s.frames f), seq := q } none := by
  have hcs := (h.curRun t c).1 hc
  have hcf : c ≠ f := by rintro rfl; simp [hcs] at hf
  have h0 : ∀ d, exits c (s.frames d) = 0 := by
    intro d
    have := h.exitT c d
    grind
  obtain ⟨a1,a2,a3,a4,a5,a6,a0,a7,a8,a9,a10,a11,a12,a13,a14,a15⟩ := h
  constructor <;> try simp only [upd_apply]
  case wf => intro d; grind [WF]
  case runTop => intro d; grind [RunTop]
  case exitU =>
    intro n d d'
    have := a13 n d d'
    grind
  case exit1 =>
    intro n d
    have := a14 n d
    grind
  case exitE =>
    intro n hn
    by_cases hnc : n = c
    · exact ⟨f, by grind⟩
    · obtain ⟨d, hd⟩ := a15 n (by grind)
      exact ⟨d, by grind⟩
  all_goals first | assumption | grind

/-- `fiber_exit n`, running on `c`, has released the stack of `n` and returns -/
theorem CInv.free {s : State} {c t n rest} (h : CInv s none) (hc : s.status c = .running t)
    (hfr : s.frames c = .exiting n :: rest) {lg} :
    CInv { s with status := upd s.status n .freed, frames := upd (upd s.frames n []) c rest, log := lg } (some c) := by
  have hn : s.status n = .terminated := h.exitT n c (by simp [hfr])
  have hw := h.wf c (by simp [hc])
  rw [hfr] at hw
  have hnc : n ≠ c := by rintro rfl; simp [hc] at hn
  have h1 : exits n rest = 0 := by have := h.exit1 n c; rw [hfr] at this; simp at this; omega
  have h2 : ∀ d, d ≠ c → exits n (s.frames d) = 0 := by
    intro d hd
    have := h.exitU n d c
    rw [hfr] at this
    grind
  have hst : SuspTop rest := by
    have := hw.1
    revert this
    cases rest with
    | nil => simp [Adj]
    | cons g gs => cases g <;> simp [Adj, SuspTop]
  have hrt := hw.2
  obtain ⟨a1,a2,a3,a4,a5,a6,a0,a7,a8,a9,a10,a11,a12,a13,a14,a15⟩ := h
  constructor <;> try simp only [upd_apply]
  case wf => intro d; grind [WF]
  case exit1 =>
    intro n' d
    have := a14 n' d
    have h3 := a14 n' c
    rw [hfr, exits_cons] at h3
    grind
  case exitE =>
    intro n' hn'
    obtain ⟨d, hd⟩ := a15 n' (by grind)
    exact ⟨d, by grind⟩
  all_goals first | assumption | grind

/-- a new fiber has been created, entered and suspended at line 95 -/
theorem CInv.create {s : State} (h : CInv s none) {q}  :
    CInv { s with status := upd s.status s.nextCtx .suspended, frames := upd s.frames s.nextCtx [.entryJump],
                  nextCtx := s.nextCtx + 1, seq := q } none := by
  have h0 := (h.absent s.nextCtx).2 (Nat.le_refl _)
  have h1 := h.fAbsent _ h0
  obtain ⟨a1,a2,a3,a4,a5,a6,a0,a7,a8,a9,a10,a11,a12,a13,a14,a15⟩ := h
  constructor <;> try simp only [upd_apply]
  case wf => intro d; grind [WF, Adj]
  case susp => intro d; grind [SuspTop]
  case exitE =>
    intro n' hn'
    obtain ⟨d, hd⟩ := a15 n' (by grind)
    exact ⟨d, by grind⟩
  case absent => intro c; have := a2 c; grind
  all_goals first | assumption | grind

theorem CInv.spawn {s : State} (h : CInv s none) {q} :
    CInv { s with cur := upd s.cur s.nextTid (some s.nextCtx), status := upd s.status s.nextCtx (.running s.nextTid),
                  frames := upd s.frames s.nextCtx [.user .main [] .normal],
                  nextCtx := s.nextCtx + 1, nextTid := s.nextTid + 1, seq := q } none := by
  have h0 := (h.absent s.nextCtx).2 (Nat.le_refl _)
  have h1 := h.fAbsent _ h0
  have h2 := h.tids _ (Nat.le_refl _)
  obtain ⟨a1,a2,a3,a4,a5,a6,a0,a7,a8,a9,a10,a11,a12,a13,a14,a15⟩ := h
  constructor <;> try simp only [upd_apply]
  case wf => intro d; grind [WF, Adj, ModeOK]
  case runTop => intro d; grind [RunTop]
  case exitE =>
    intro n' hn'
    obtain ⟨d, hd⟩ := a15 n' (by grind)
    exact ⟨d, by grind⟩
  case absent => intro c; have := a2 c; grind
  case curRun => intro t c; have := a1 t c; grind
  case tids => intro t; have := a3 t; grind
  all_goals first | assumption | grind

theorem CInv.threadExit {s : State} {t c ls m} (h : CInv s none) (hc : s.cur t = some c)
    (hf : s.frames c = [.user .main ls m]) :
    CInv { s with cur := upd s.cur t none, status := upd s.status c .ended, frames := upd s.frames c [] } none := by
  have hcs := (h.curRun t c).1 hc
  obtain ⟨a1,a2,a3,a4,a5,a6,a0,a7,a8,a9,a10,a11,a12,a13,a14,a15⟩ := h
  constructor <;> try simp only [upd_apply]
  case wf => intro d; grind [WF, Adj]
  case exitE =>
    intro n' hn'
    obtain ⟨d, hd⟩ := a15 n' (by grind)
    exact ⟨d, by grind⟩
  case curRun => intro t' c'; have := a1 t' c'; have := a1 t' c; grind
  all_goals first | assumption | grind

/-! ## value part -/

theorem VInv.congr {s s' : State} {r} (h : VInv s r) (h1 : s'.val = s.val) (h2 : s'.status = s.status)
    (h3 : s'.frames = s.frames) (h4 : s'.kind = s.kind) (h5 : s'.seq = s.seq) (h6 : s'.lost = s.lost) : VInv s' r := by
  obtain ⟨a1,a2,a3,a4,a5,a6,a7,a8,a9,a10,a11⟩ := h
  constructor <;> (try simp only [h1, h2, h3, h4, h5, h6]) <;> assumption

theorem VInv.setFrames {s : State} {r c t} (h : VInv s r) (hc : s.status c = .running t) {fs} : VInv (s.setFrames c fs) r := by
  obtain ⟨a1,a2,a3,a4,a5,a6,a7,a8,a9,a10,a11⟩ := h
  constructor <;> try simp only [setFrames_kind, setFrames_status, setFrames_val, setFrames_lost, setFrames_frames, setFrames_seq, upd_apply]
  all_goals first | assumption | grind

/-- push a suspension frame on the running context and switch to the context of register `f` -/
theorem VInv.pushSwitch {s : State} {r c t f fr} (h : VInv s (f :: r)) (hcs : s.status c = .running t) {cu} :
    VInv { s with cur := cu, status := upd (upd s.status c .suspended) f.ctx (.running t),
                  frames := upd s.frames c (fr :: s.frames c), seq := upd s.seq c (s.seq c + 1) }
      (⟨c, s.seq c + 1⟩ :: r) := by
  obtain ⟨a1,a2,a3,a4,a5,a6,a7,a8,a9,a10,a11⟩ := h
  have hff := a4 f (by simp)
  have hcf : c ≠ f.ctx := by rintro rfl; simp [hcs] at hff
  have hfl : s.lost f.ctx = false := by
    cases hl : s.lost f.ctx with
    | false => rfl
    | true => have := (a11 _ hl).2.2 f (by simp); simp at this
  simp only [List.map_cons, List.nodup_cons, List.mem_map, not_exists, not_and] at a6
  constructor <;> try simp only [upd_apply, List.map_cons, List.nodup_cons, List.mem_map, not_exists, not_and, List.mem_cons]
  case nodupR =>
    refine ⟨?_, a6.2⟩
    intro g hg hgc
    have := a4 g (by simp [hg])
    grind
  case held =>
    intro d hd
    by_cases hdc : d = c
    · exact Or.inr (Or.inr ⟨_, Or.inl rfl, hdc.symm⟩)
    · have hdf : d ≠ f.ctx := by grind
      rcases a7 d (by grind) with h | h | ⟨g, hg, hgd⟩
      · exact Or.inl h
      · exact Or.inr (Or.inl h)
      · refine Or.inr (Or.inr ⟨g, Or.inr ?_, hgd⟩)
        simp at hg; grind
  all_goals first | assumption | grind

theorem VInv.finish {s : State} {c t f} (h : VInv s [f]) (hcs : s.status c = .running t) {cu fs gs} :
    VInv { s with cur := cu, status := upd (upd s.status c .terminated) f.ctx (.running t),
                  frames := upd (upd s.frames c fs) f.ctx gs, seq := upd s.seq c (s.seq c + 1) } [] := by
  obtain ⟨a1,a2,a3,a4,a5,a6,a7,a8,a9,a10,a11⟩ := h
  have hff := a4 f (by simp)
  have hcf : c ≠ f.ctx := by rintro rfl; simp [hcs] at hff
  constructor <;> try simp only [upd_apply]
  case nodupR => simp
  case held =>
    intro d hd
    have hdf : d ≠ f.ctx := by grind
    have hdc : d ≠ c := by grind
    rcases a7 d (by grind) with h | h | ⟨g, hg, hgd⟩
    · exact Or.inl h
    · exact Or.inr (Or.inl h)
    · simp at hg; grind
  all_goals first | assumption | grind

/-- an object that is not an exception gives its value into a register -/
theorem VInv.take {s : State} {r x f} (h : VInv s r) (hx : s.val x = some f) (hk : ∀ c, s.kind x ≠ .exc c) :
    VInv (s.setVal x none) (f :: r) := by
  obtain ⟨a1,a2,a3,a4,a5,a6,a7,a8,a9,a10,a11⟩ := h
  constructor <;> try simp only [upd_apply, List.map_cons, List.nodup_cons, List.mem_map, not_exists, not_and, List.mem_cons, setVal_val,
    setVal_status, setVal_frames, setVal_seq, setVal_kind, setVal_lost]
  case held =>
    intro d hd
    rcases a7 d hd with h | ⟨y, g, h1, h2⟩ | ⟨g, hg, hgd⟩
    · exact Or.inl h
    · by_cases hyx : y = x
      · exact Or.inr (Or.inr ⟨g, by grind, h2⟩)
      · exact Or.inr (Or.inl ⟨y, g, by grind⟩)
    · exact Or.inr (Or.inr ⟨g, by grind⟩)
  all_goals first | assumption | grind

theorem VInv.setNone {s : State} {r x} (h : VInv s r) (hx : s.val x = none) : VInv (s.setVal x none) r := by
  have : upd s.val x none = s.val := by funext y; simp; grind
  exact h.congr (by simp [this]) rfl rfl rfl rfl rfl

/-- an object dies, its value (if any) goes to a register -/
theorem VInv.killSome {s : State} {r x f} (h : VInv s r) (hx : s.val x = some f) : VInv (s.kill x) (f :: r) := by
  obtain ⟨a1,a2,a3,a4,a5,a6,a7,a8,a9,a10,a11⟩ := h
  constructor <;> try simp only [upd_apply, List.map_cons, List.nodup_cons, List.mem_map, not_exists, not_and, List.mem_cons, kill_val,
    kill_status, kill_frames, kill_seq, kill_kind, kill_lost]
  case held =>
    intro d hd
    rcases a7 d hd with h | ⟨y, g, h1, h2⟩ | ⟨g, hg, hgd⟩
    · exact Or.inl h
    · by_cases hyx : y = x
      · exact Or.inr (Or.inr ⟨g, by grind, h2⟩)
      · exact Or.inr (Or.inl ⟨y, g, by grind⟩)
    · exact Or.inr (Or.inr ⟨g, by grind⟩)
  all_goals first | assumption | grind

theorem VInv.killNone {s : State} {r x} (h : VInv s r) (hx : s.val x = none) : VInv (s.kill x) r := by
  obtain ⟨a1,a2,a3,a4,a5,a6,a7,a8,a9,a10,a11⟩ := h
  constructor <;> try simp only [upd_apply, kill_val,
    kill_status, kill_frames, kill_seq, kill_kind, kill_lost]
  case held =>
    intro d hd
    rcases a7 d hd with h | ⟨y, g, h1, h2⟩ | ⟨g, hg, hgd⟩
    · exact Or.inl h
    · exact Or.inr (Or.inl ⟨y, g, by grind⟩)
    · exact Or.inr (Or.inr ⟨g, by grind⟩)
  all_goals first | assumption | grind

/-- an empty object receives a register -/
theorem VInv.put {s : State} {r x f} (h : VInv s (f :: r)) (hx : s.val x = none) (hd : s.kind x ≠ .dead)
    (hk : ∀ c, s.kind x ≠ .exc c) (ht : ∀ v, ¬ DtorTop v (s.frames f.ctx)) : VInv (s.setVal x (some f)) r := by
  obtain ⟨a1,a2,a3,a4,a5,a6,a7,a8,a9,a10,a11⟩ := h
  simp only [List.map_cons, List.nodup_cons, List.mem_map, not_exists, not_and] at a6
  constructor <;> try simp only [upd_apply, setVal_val, setVal_status, setVal_frames, setVal_seq, setVal_kind, setVal_lost]
  case held =>
    intro d hd
    rcases a7 d hd with h | ⟨y, g, h1, h2⟩ | ⟨g, hg, hgd⟩
    · exact Or.inl h
    · exact Or.inr (Or.inl ⟨y, g, by grind⟩)
    · simp at hg
      rcases hg with rfl | hg
      · exact Or.inr (Or.inl ⟨x, g, by grind⟩)
      · exact Or.inr (Or.inr ⟨g, by grind⟩)
  case nodupR => exact a6.2
  all_goals first | assumption | grind

theorem VInv.newVar {s : State} {r k} (h : VInv s r) (ho : s.kind s.nextVar = .dead) (hk : ∀ c, k ≠ .exc c) :
    VInv (s.newVar k none) r := by
  have hn := h.deadNone _ ho
  obtain ⟨a1,a2,a3,a4,a5,a6,a7,a8,a9,a10,a11⟩ := h
  constructor <;> try simp only [upd_apply, newVar_val, newVar_status, newVar_frames, newVar_seq, newVar_kind, newVar_lost]
  case held =>
    intro d hd
    rcases a7 d hd with h | ⟨y, g, h1, h2⟩ | ⟨g, hg, hgd⟩
    · exact Or.inl h
    · exact Or.inr (Or.inl ⟨y, g, by grind⟩)
    · exact Or.inr (Or.inr ⟨g, by grind⟩)
  all_goals first | assumption | grind

theorem VInv.newVarSome {s : State} {r k f} (h : VInv s (f :: r)) (ho : s.kind s.nextVar = .dead) (hd : k ≠ .dead)
    (hk : ∀ c, k = .exc c → DtorTop c (s.frames f.ctx))
    (ht : (∀ c, k ≠ .exc c) → ∀ v, ¬ DtorTop v (s.frames f.ctx)) : VInv (s.newVar k (some f)) r := by
  have hn := h.deadNone _ ho
  obtain ⟨a1,a2,a3,a4,a5,a6,a7,a8,a9,a10,a11⟩ := h
  simp only [List.map_cons, List.nodup_cons, List.mem_map, not_exists, not_and] at a6
  constructor <;> try simp only [upd_apply, newVar_val, newVar_status, newVar_frames, newVar_seq, newVar_kind, newVar_lost]
  case held =>
    intro d hd
    rcases a7 d hd with h | ⟨y, g, h1, h2⟩ | ⟨g, hg, hgd⟩
    · exact Or.inl h
    · exact Or.inr (Or.inl ⟨y, g, by grind⟩)
    · simp at hg
      rcases hg with rfl | hg
      · exact Or.inr (Or.inl ⟨s.nextVar, g, by grind⟩)
      · exact Or.inr (Or.inr ⟨g, by grind⟩)
  case nodupR => exact a6.2
  all_goals first | assumption | grind

/-- statuses of contexts that are not suspended may change among themselves, together with their stacks -/
theorem VInv.status {s s' : State} {r} (h : VInv s r) (h1 : s'.val = s.val) (h4 : s'.kind = s.kind) (h5 : s'.seq = s.seq)
    (h6 : s'.lost = s.lost)
    (hs : ∀ c, s'.status c = .suspended ↔ s.status c = .suspended)
    (hf : ∀ c, s.status c = .suspended → s'.frames c = s.frames c) : VInv s' r := by
  obtain ⟨a1,a2,a3,a4,a5,a6,a7,a8,a9,a10,a11⟩ := h
  constructor <;> try simp only [h1, h4, h5, h6, hs]
  all_goals first | assumption | grind

/-- a new suspended context, its `fcontext_t` in a register -/
theorem VInv.create {s : State} {r n q} (h : VInv s r) (hn : s.status n ≠ .suspended) {fs nc} (hfs : ∀ v, ¬ DtorTop v fs) :
    VInv { s with status := upd s.status n .suspended, frames := upd s.frames n fs, nextCtx := nc,
                  seq := upd s.seq n q } (⟨n, q⟩ :: r) := by
  obtain ⟨a1,a2,a3,a4,a5,a6,a7,a8,a9,a10,a11⟩ := h
  have hv : ∀ x f, s.val x = some f → f.ctx ≠ n := by grind
  have hvr : ∀ f ∈ r, f.ctx ≠ n := by grind
  have hl : s.lost n = false := by grind
  constructor <;> try simp only [upd_apply, List.map_cons, List.nodup_cons, List.mem_map, not_exists, not_and, List.mem_cons]
  case held =>
    intro d hd
    by_cases hdn : d = n
    · exact Or.inr (Or.inr ⟨_, Or.inl rfl, hdn.symm⟩)
    · rcases a7 d (by grind) with h | ⟨y, g, h1, h2⟩ | ⟨g, hg, hgd⟩
      · exact Or.inl h
      · exact Or.inr (Or.inl ⟨y, g, by grind⟩)
      · exact Or.inr (Or.inr ⟨g, by grind⟩)
  all_goals first | assumption | grind

/-- the seq of a running context does not matter -/
theorem VInv.bump {s : State} {r c t q} (h : VInv s r) (hc : s.status c = .running t) :
    VInv { s with seq := upd s.seq c q } r := by
  obtain ⟨a1,a2,a3,a4,a5,a6,a7,a8,a9,a10,a11⟩ := h
  constructor <;> try simp only [upd_apply]
  all_goals first | assumption | grind

/-- user code swallows a `forced_unwind` -/
theorem VInv.swallow {s : State} {x c f} (h : VInv s []) (hx : s.val x = some f) (hk : s.kind x = .exc c) :
    VInv { s.kill x with lost := upd s.lost f.ctx true } [] := by
  obtain ⟨a1,a2,a3,a4,a5,a6,a7,a8,a9,a10,a11⟩ := h
  have := a8 x c f hk hx
  constructor <;> try simp only [upd_apply, kill_val, kill_status, kill_frames, kill_seq, kill_kind]
  case held =>
    intro d hd
    rcases a7 d hd with h | ⟨y, g, h1, h2⟩ | ⟨g, hg, hgd⟩
    · exact Or.inl (by grind)
    · by_cases hyx : y = x
      · exact Or.inl (by grind)
      · exact Or.inr (Or.inl ⟨y, g, by grind⟩)
    · simp at hg
  case lostS =>
    intro d hd
    by_cases hdf : d = f.ctx
    · subst hdf
      refine ⟨(a2 x f hx).1, ?_, by simp⟩
      intro y g hy hgf
      grind
    · have := a11 d (by grind)
      grind
  all_goals first | assumption | grind

/-- a pointer held in a register is dropped -/
theorem VInv.loseReg {s : State} {f} (h : VInv s [f]) : VInv { s with lost := upd s.lost f.ctx true } [] := by
  obtain ⟨a1,a2,a3,a4,a5,a6,a7,a8,a9,a10,a11⟩ := h
  constructor <;> try simp only [upd_apply]
  case held =>
    intro d hd
    rcases a7 d hd with h | ⟨y, g, h1, h2⟩ | ⟨g, hg, hgd⟩
    · exact Or.inl (by grind)
    · exact Or.inr (Or.inl ⟨y, g, by grind⟩)
    · exact Or.inl (by grind)
  case lostS =>
    intro d hd
    by_cases hdf : d = f.ctx
    · subst hdf
      refine ⟨(a4 f (by simp)).1, ?_, by simp⟩
      intro y g hy hgf
      exact a5 f (by simp) y g hy hgf
    · have := a11 d (by grind)
      grind
  case nodupR => simp
  all_goals first | assumption | grind

end Verif.Fiber
