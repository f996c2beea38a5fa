import Verif.Backends.Spec
import Verif.Fiber.Log2
import Verif.Fiber.Evol
import Verif.UFiber.Log

/-! # The simulation relation between the two implementations and its preservation by primitive updates -/

namespace Verif.Backends
open Verif.Fiber (CtxId Var Tid Kind Exc Mode UKind Frame Status Event Op CreateOutcome Fctx upd upd_apply)

/-- a finished fiber is a released one -/
def fin (st : Status) : Status := if st = .terminated then .freed else st

/-- what a record pointer designates, finished fibers counting as nothing -/
def live (st : CtxId → Status) : Option CtxId → Option CtxId
  | none => none
  | some w => if st w = .terminated then none else some w

@[simp] theorem live_none {st} : live st none = none := rfl

structure R (a : Fiber.State) (b : UFiber.State) : Prop where
  cur : b.cur = a.cur
  kind : b.kind = a.kind
  nC : b.nextCtx = a.nextCtx
  nV : b.nextVar = a.nextVar
  nT : b.nextTid = a.nextTid
  nI : b.nextId = a.nextId
  st : ∀ c, a.status c = fin (b.status c)
  fr : ∀ c, a.frames c = if b.status c = .terminated then [] else b.frames c
  val : ∀ x, (a.val x).map Fctx.ctx = live b.status (b.val x)
  log : a.log.filter notRelease = b.log.filter notRelease
  capA : ∀ c, a.caps c = []
  capB : ∀ c, b.caps c = []
  noExit : ∀ c n, Frame.exiting n ∉ b.frames c
  ont : ∀ c i, b.ontop c = some i → InOntop (b.frames c)
  unw : ∀ c, b.unw c = true → BeingUnwound (b.frames c)
  res : ∀ c rest, b.frames c = .resume :: rest → ¬ InOntop (b.frames c) ∧ ¬ BeingUnwound (b.frames c)
  early : b.early = false

theorem live_congr {st st' : CtxId → Status} (h : ∀ c, st' c = .terminated ↔ st c = .terminated) (v) : live st' v = live st v := by
  cases v <;> simp [live, h]

/-- fields of the ucontext state not mentioned in the relation may change -/
theorem R.congrB {a : Fiber.State} {b b' : UFiber.State} (h : R a b) (h1 : b'.cur = b.cur) (h2 : b'.kind = b.kind) (h3 : b'.nextCtx = b.nextCtx)
    (h4 : b'.nextVar = b.nextVar) (h5 : b'.nextTid = b.nextTid) (h6 : b'.nextId = b.nextId) (h7 : b'.status = b.status)
    (h8 : b'.frames = b.frames) (h9 : b'.val = b.val) (h10 : b'.log.filter notRelease = b.log.filter notRelease) (h11 : b'.caps = b.caps)
    (h12 : b'.ontop = b.ontop) (h13 : b'.unw = b.unw) (h14 : b'.early = b.early) : R a b' := by
  obtain ⟨a1,a2,a3,a4,a5,a6,a7,a8,a9,a10,a11,a12,a13,a14,a15,a16,a17⟩ := h
  constructor <;> (try simp only [h1, h2, h3, h4, h5, h6, h7, h8, h9, h10, h11, h12, h13, h14]) <;> assumption

theorem R.congrA {a a' : Fiber.State} {b : UFiber.State} (h : R a b) (h1 : a'.cur = a.cur) (h2 : a'.kind = a.kind) (h3 : a'.nextCtx = a.nextCtx)
    (h4 : a'.nextVar = a.nextVar) (h5 : a'.nextTid = a.nextTid) (h6 : a'.nextId = a.nextId) (h7 : a'.status = a.status)
    (h8 : a'.frames = a.frames) (h9 : a'.val = a.val) (h10 : a'.log.filter notRelease = a.log.filter notRelease) (h11 : a'.caps = a.caps) : R a' b := by
  obtain ⟨a1,a2,a3,a4,a5,a6,a7,a8,a9,a10,a11,a12,a13,a14,a15,a16,a17⟩ := h
  constructor <;> (try simp only [h1, h2, h3, h4, h5, h6, h7, h8, h9, h10, h11]) <;> assumption

theorem R.setFrames {a : Fiber.State} {b : UFiber.State} {c fs} (h : R a b) (hc : b.status c ≠ .terminated) (hn : ∀ n, Frame.exiting n ∉ fs)
    (ho : ∀ i, b.ontop c = some i → InOntop fs) (hu : b.unw c = true → BeingUnwound fs)
    (hr : ∀ rest, fs = .resume :: rest → ¬ InOntop fs ∧ ¬ BeingUnwound fs) : R (a.setFrames c fs) (b.setFrames c fs) := by
  obtain ⟨a1,a2,a3,a4,a5,a6,a7,a8,a9,a10,a11,a12,a13,a14,a15,a16,a17⟩ := h
  constructor <;> simp only [Fiber.State.setFrames, UFiber.State.setFrames, upd_apply] <;> first | assumption | grind

theorem R.setVal {a : Fiber.State} {b : UFiber.State} {x v w} (h : R a b) (hv : v.map Fctx.ctx = live b.status w) :
    R (a.setVal x v) (b.setVal x w) := by
  obtain ⟨a1,a2,a3,a4,a5,a6,a7,a8,a9,a10,a11,a12,a13,a14,a15,a16,a17⟩ := h
  constructor <;> simp only [Fiber.State.setVal, UFiber.State.setVal, upd_apply] <;> first | assumption | grind

theorem R.kill {a : Fiber.State} {b : UFiber.State} {x} (h : R a b) : R (a.kill x) (b.kill x) := by
  obtain ⟨a1,a2,a3,a4,a5,a6,a7,a8,a9,a10,a11,a12,a13,a14,a15,a16,a17⟩ := h
  constructor <;> simp only [Fiber.State.kill, UFiber.State.kill, upd_apply] <;> first | assumption | grind [live]

theorem R.newVar {a : Fiber.State} {b : UFiber.State} {k v w} (h : R a b) (hv : v.map Fctx.ctx = live b.status w) :
    R (a.newVar k v) (b.newVar k w) := by
  obtain ⟨a1,a2,a3,a4,a5,a6,a7,a8,a9,a10,a11,a12,a13,a14,a15,a16,a17⟩ := h
  constructor <;> simp only [Fiber.State.newVar, UFiber.State.newVar, upd_apply, a4] <;> first | assumption | grind

theorem R.addLog {a : Fiber.State} {b : UFiber.State} (h : R a b) (e) : R (a.addLog e) (b.addLog e) := by
  obtain ⟨a1,a2,a3,a4,a5,a6,a7,a8,a9,a10,a11,a12,a13,a14,a15,a16,a17⟩ := h
  constructor <;> simp only [Fiber.State.addLog, UFiber.State.addLog] <;> first | assumption | simp only [List.filter_cons, a10]

/-- a switch: `c` is left suspended, `w` continues -/
theorem R.switch {a : Fiber.State} {b : UFiber.State} {t c w sq fm} (h : R a b) (hc : b.status c ≠ .terminated) (hw : b.status w = .suspended) :
    R { a with cur := upd a.cur t (some w), status := upd (upd a.status c .suspended) w (.running t), seq := sq }
      { b with frm := fm, cur := upd b.cur t (some w), status := upd (upd b.status c .suspended) w (.running t) } := by
  have hl : ∀ v, live (upd (upd b.status c .suspended) w (.running t)) v = live b.status v := by
    apply live_congr; intro d; simp only [upd_apply]; grind
  obtain ⟨a1,a2,a3,a4,a5,a6,a7,a8,a9,a10,a11,a12,a13,a14,a15,a16,a17⟩ := h
  constructor <;> try simp only [upd_apply, hl]
  case cur => rw [a1]
  case st => intro d; have := a7 d; unfold fin at *; grind
  case fr => intro d; have := a8 d; grind
  all_goals assumption

/-- fcontext releases a finished fiber at once, ucontext keeps the record: `c` finishes, `w` continues -/
theorem R.finish {a : Fiber.State} {b : UFiber.State} {t c w sq fm e} (h : R a b) (hc : b.status c = .running t) (hw : b.status w = .suspended)
    (hv : ∀ x, b.val x ≠ some c) (he : notRelease e = false) :
    R { a with cur := upd a.cur t (some w), status := upd (upd a.status c .freed) w (.running t), seq := sq,
               frames := upd a.frames c [], log := e :: a.log }
      { b with frm := fm, ontop := upd b.ontop c none, term := upd b.term c true, unw := upd b.unw c false, frames := upd b.frames c [.exitJump],
               cur := upd b.cur t (some w), status := upd (upd b.status c .terminated) w (.running t) } := by
  have hcw : c ≠ w := by rintro rfl; simp [hc] at hw
  have hl : ∀ x, live (upd (upd b.status c .terminated) w (.running t)) (b.val x) = live b.status (b.val x) := by
    intro x
    have := hv x
    cases hx : b.val x with
    | none => rfl
    | some v => simp only [live, upd_apply]; grind
  obtain ⟨a1,a2,a3,a4,a5,a6,a7,a8,a9,a10,a11,a12,a13,a14,a15,a16,a17⟩ := h
  constructor <;> try simp only [upd_apply, hl]
  case cur => rw [a1]
  case st => intro d; have := a7 d; unfold fin at *; grind
  case fr => intro d; have := a8 d; grind
  case log => simpa [he] using a10
  case noExit => intro d; split <;> simp_all
  case ont => intro d; grind
  case unw => intro d; grind
  case res => intro d; grind
  all_goals assumption

/-- ucontext releases the record of a finished fiber -/
theorem R.release {a : Fiber.State} {b : UFiber.State} {c e} (h : R a b) (hc : b.status c = .terminated) (hv : ∀ x, b.val x ≠ some c)
    (ho : b.ontop c = none) (hu : b.unw c = false) (he : notRelease e = false) :
    R a { b with status := upd b.status c .freed, frames := upd b.frames c [], log := e :: b.log } := by
  have hl : ∀ x, live (upd b.status c .freed) (b.val x) = live b.status (b.val x) := by
    intro x
    have := hv x
    cases hx : b.val x with
    | none => rfl
    | some v => simp only [live, upd_apply]; grind
  obtain ⟨a1,a2,a3,a4,a5,a6,a7,a8,a9,a10,a11,a12,a13,a14,a15,a16,a17⟩ := h
  constructor <;> try simp only [upd_apply, hl]
  case st => intro d; have := a7 d; unfold fin at *; grind
  case fr => intro d; have := a8 d; grind
  case log => simpa [he] using a10
  case noExit => intro d; split <;> simp_all
  case ont => intro d; grind
  case unw => intro d; grind
  case res => intro d; grind
  all_goals assumption

/-- outcomes of one step -/
inductive Match : Fiber.Res → UFiber.Res → Prop
  | ok {a b} : R a b → Match (.ok a) (.ok b)
  | rejected : Match .rejected .rejected
  | terminate : Match .terminate .terminate
  | assertion : Match .assertion .assertion

theorem releasing_mem {fs} (h : releasing fs = true) : ∃ n, Frame.exiting n ∈ fs := by
  cases fs with
  | nil => simp [releasing] at h
  | cons f fs => cases f <;> simp_all [releasing]

theorem R.noExitA {a : Fiber.State} {b : UFiber.State} (h : R a b) (c n) : Frame.exiting n ∉ a.frames c := by
  rw [h.fr c]; split
  · simp
  · exact h.noExit c n

theorem Match.settle {r q t} (h : Match r q) : Match (fSettle t r) (uSettle t q) := by
  cases h with
  | @ok a b h =>
    have h1 : fReleasing a t = false := by
      cases hr : fReleasing a t with
      | false => rfl
      | true =>
        unfold fReleasing at hr
        split at hr
        · obtain ⟨n, hn⟩ := releasing_mem hr; exact absurd hn (h.noExitA _ n)
        · simp at hr
    have h2 : uReleasing b t = false := by
      cases hr : uReleasing b t with
      | false => rfl
      | true =>
        unfold uReleasing at hr
        split at hr
        · obtain ⟨n, hn⟩ := releasing_mem hr; exact absurd hn (h.noExit _ n)
        · simp at hr
    simp only [fSettle, uSettle, h1, h2]
    exact .ok h
  | rejected => exact .rejected
  | terminate => exact .terminate
  | assertion => exact .assertion

theorem Match.res {r q t} (h : Match r q) {r' q'} (h1 : r' = r) (h2 : q' = q) : Match (fSettle t r') (uSettle t q') := by
  subst h1 h2; exact h.settle

end Verif.Backends
