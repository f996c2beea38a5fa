import Verif.UFiber.Prim

/-! # Preservation lemmas for the object part of the invariant -/

namespace Verif.UFiber
open Verif.Fiber (CtxId Var Tid Kind Exc Mode UKind Frame Status Event Op CreateOutcome upd upd_apply lvars evars rvars exits
  ModeOK SuspTop RunTop DtorTop lvars_nil evars_nil rvars_nil lvars_cons evars_cons rvars_cons exits_nil exits_cons
  dtorTop_iff suspTop_iff runTop_iff modeOK_unwinding modeOK_normal)
open State

theorem OInv.congr {s s' : State} (h : OInv s) (h1 : s'.frames = s.frames) (h2 : s'.kind = s.kind)
    (h3 : s'.caps = s.caps) (h4 : s'.nextVar = s.nextVar) (h5 : s.nextCtx ≤ s'.nextCtx)
    (h6 : ∀ c, s'.status c = .freed → s.status c = .freed ∨ s.caps c = []) : OInv s' := by
  obtain ⟨a1,a2,a3,a4,a5,a6,a7,a8,a9,a10,a11⟩ := h
  constructor <;> (try simp only [h1, h2, h3, h4]) <;> first | assumption | grind

/-- the variables of the stack stay the same -/
theorem OInv.setFrames {s : State} {c fs} (h : OInv s) (hl : lvars fs = lvars (s.frames c))
    (he : evars fs = evars (s.frames c)) (hr : rvars fs = rvars (s.frames c)) : OInv (s.setFrames c fs) := by
  obtain ⟨a1,a2,a3,a4,a5,a6,a7,a8,a9,a10,a11⟩ := h
  constructor <;> try simp only [setFrames_frames, setFrames_kind, setFrames_caps, setFrames_status, setFrames_nextCtx, setFrames_nextVar, upd_apply]
  all_goals first | assumption | grind

theorem OInv.setVal {s : State} {x v} (h : OInv s) : OInv (s.setVal x v) :=
  h.congr rfl rfl rfl rfl (Nat.le_refl _) (fun _ h => Or.inl h)

theorem OInv.newHeap {s : State} {v} (h : OInv s) : OInv (s.newVar .heap v) := by
  have hn := h.fresh _ (Nat.le_refl _)
  obtain ⟨a1,a2,a3,a4,a5,a6,a7,a8,a9,a10,a11⟩ := h
  constructor <;> try simp only [newVar_frames, newVar_kind, newVar_caps, newVar_status, newVar_nextCtx, newVar_nextVar, upd_apply]
  all_goals first | assumption | grind

theorem OInv.newLoc {s : State} {c fs v} (h : OInv s) (hl : lvars fs = s.nextVar :: lvars (s.frames c))
    (he : evars fs = evars (s.frames c)) (hr : rvars fs = rvars (s.frames c)) :
    OInv ((s.newVar (.loc c) v).setFrames c fs) := by
  have hn := h.fresh _ (Nat.le_refl _)
  obtain ⟨a1,a2,a3,a4,a5,a6,a7,a8,a9,a10,a11⟩ := h
  constructor <;> try simp only [newVar_frames, newVar_kind, newVar_caps, newVar_status, newVar_nextCtx, newVar_nextVar, upd_apply,
    setFrames_frames, setFrames_kind, setFrames_caps, setFrames_status, setFrames_nextCtx, setFrames_nextVar]
  case locsN =>
    intro d
    by_cases hd : d = c
    · subst hd; simp only [if_true, hl, List.nodup_cons]; exact ⟨by grind, a5 _⟩
    · simp [hd]; exact a5 d
  case fresh => intro x hx; have := a11 x; grind
  all_goals first | assumption | grind

theorem OInv.newExc {s : State} {c fs v} (h : OInv s) (he : evars fs = s.nextVar :: evars (s.frames c))
    (hl : lvars fs = lvars (s.frames c)) (hr : rvars fs = rvars (s.frames c)) :
    OInv ((s.newVar (.exc c) v).setFrames c fs) := by
  have hn := h.fresh _ (Nat.le_refl _)
  obtain ⟨a1,a2,a3,a4,a5,a6,a7,a8,a9,a10,a11⟩ := h
  constructor <;> try simp only [newVar_frames, newVar_kind, newVar_caps, newVar_status, newVar_nextCtx, newVar_nextVar, upd_apply,
    setFrames_frames, setFrames_kind, setFrames_caps, setFrames_status, setFrames_nextCtx, setFrames_nextVar]
  case excsN =>
    intro d
    by_cases hd : d = c
    · subst hd; simp only [if_true, he, List.nodup_cons]; exact ⟨by grind, a6 _⟩
    · simp [hd]; exact a6 d
  case fresh => intro x hx; have := a11 x; grind
  all_goals first | assumption | grind

theorem OInv.newRet {s : State} {c fs v} (h : OInv s) (hr : rvars fs = s.nextVar :: rvars (s.frames c))
    (hl : lvars fs = lvars (s.frames c)) (he : evars fs = evars (s.frames c)) :
    OInv ((s.newVar (.ret c) v).setFrames c fs) := by
  have hn := h.fresh _ (Nat.le_refl _)
  obtain ⟨a1,a2,a3,a4,a5,a6,a7,a8,a9,a10,a11⟩ := h
  constructor <;> try simp only [newVar_frames, newVar_kind, newVar_caps, newVar_status, newVar_nextCtx, newVar_nextVar, upd_apply,
    setFrames_frames, setFrames_kind, setFrames_caps, setFrames_status, setFrames_nextCtx, setFrames_nextVar]
  case retsN =>
    intro d
    by_cases hd : d = c
    · subst hd; simp only [if_true, hr, List.nodup_cons]; exact ⟨by grind, a7 _⟩
    · simp [hd]; exact a7 d
  case fresh => intro x hx; have := a11 x; grind
  all_goals first | assumption | grind

theorem OInv.killLoc {s : State} {c fs x} (h : OInv s) (hp : (lvars (s.frames c)).Perm (x :: lvars fs))
    (he : evars fs = evars (s.frames c)) (hr : rvars fs = rvars (s.frames c)) :
    OInv ((s.setFrames c fs).kill x) := by
  have hx : s.kind x = .loc c := (h.locs c x).1 (hp.mem_iff.2 (by simp))
  have hnd := hp.nodup_iff.1 (h.locsN c)
  have hm : ∀ y, y ∈ lvars (s.frames c) ↔ y = x ∨ y ∈ lvars fs := by intro y; rw [hp.mem_iff]; simp
  obtain ⟨a1,a2,a3,a4,a5,a6,a7,a8,a9,a10,a11⟩ := h
  simp only [List.nodup_cons] at hnd
  constructor <;> try simp only [kill_frames, kill_kind, kill_caps, kill_status, kill_nextCtx, kill_nextVar, upd_apply,
    setFrames_frames, setFrames_kind, setFrames_caps, setFrames_status, setFrames_nextCtx, setFrames_nextVar]
  all_goals first | assumption | grind

theorem OInv.killExc {s : State} {c fs x} (h : OInv s) (hl : lvars fs = lvars (s.frames c))
    (he : evars (s.frames c) = x :: evars fs) (hr : rvars fs = rvars (s.frames c)) :
    OInv ((s.setFrames c fs).kill x) := by
  have hx : s.kind x = .exc c := (h.excs c x).1 (by simp [he])
  have hnd := h.excsN c
  rw [he] at hnd
  obtain ⟨a1,a2,a3,a4,a5,a6,a7,a8,a9,a10,a11⟩ := h
  simp only [List.nodup_cons] at hnd
  constructor <;> try simp only [kill_frames, kill_kind, kill_caps, kill_status, kill_nextCtx, kill_nextVar, upd_apply,
    setFrames_frames, setFrames_kind, setFrames_caps, setFrames_status, setFrames_nextCtx, setFrames_nextVar]
  all_goals first | assumption | grind

theorem OInv.killRet {s : State} {c fs x} (h : OInv s) (hl : lvars fs = lvars (s.frames c))
    (hr : rvars (s.frames c) = x :: rvars fs) (he : evars fs = evars (s.frames c)) :
    OInv ((s.setFrames c fs).kill x) := by
  have hx : s.kind x = .ret c := (h.rets c x).1 (by simp [hr])
  have hnd := h.retsN c
  rw [hr] at hnd
  obtain ⟨a1,a2,a3,a4,a5,a6,a7,a8,a9,a10,a11⟩ := h
  simp only [List.nodup_cons] at hnd
  constructor <;> try simp only [kill_frames, kill_kind, kill_caps, kill_status, kill_nextCtx, kill_nextVar, upd_apply,
    setFrames_frames, setFrames_kind, setFrames_caps, setFrames_status, setFrames_nextCtx, setFrames_nextVar]
  all_goals first | assumption | grind

theorem OInv.killHeap {s : State} {x} (h : OInv s) (hx : s.kind x = .heap) : OInv (s.kill x) := by
  obtain ⟨a1,a2,a3,a4,a5,a6,a7,a8,a9,a10,a11⟩ := h
  constructor <;> try simp only [kill_frames, kill_kind, kill_caps, kill_status, kill_nextCtx, kill_nextVar, upd_apply]
  all_goals first | assumption | grind

theorem OInv.killCap {s : State} {n x xs} (h : OInv s) (hx : s.caps n = x :: xs) :
    OInv ({ s with caps := upd s.caps n xs }.kill x) := by
  have hk : s.kind x = .cap n := (h.capv n x).1 (by simp [hx])
  have hnd := h.capsN n
  rw [hx] at hnd
  obtain ⟨a1,a2,a3,a4,a5,a6,a7,a8,a9,a10,a11⟩ := h
  simp only [List.nodup_cons] at hnd
  constructor <;> try simp only [kill_frames, kill_kind, kill_caps, kill_status, kill_nextCtx, kill_nextVar, upd_apply]
  case capsF => intro c hc; have := a9 c hc; grind
  case capsA => intro c hc; have := a10 c hc; grind
  all_goals first | assumption | grind

/-- a new captured object of a record that is being built -/
theorem OInv.newCap {s : State} {n v} (h : OInv s) (hn : n < s.nextCtx) (hs : s.status n ≠ .freed) :
    OInv { s.newVar (.cap n) v with caps := upd s.caps n (s.nextVar :: s.caps n) } := by
  have hf := h.fresh _ (Nat.le_refl _)
  obtain ⟨a1,a2,a3,a4,a5,a6,a7,a8,a9,a10,a11⟩ := h
  constructor <;> try simp only [newVar_frames, newVar_kind, newVar_status, newVar_nextCtx, newVar_nextVar, upd_apply]
  case capsN =>
    intro c
    by_cases hc : c = n
    · subst hc; simp only [if_true, List.nodup_cons]; exact ⟨by grind, a8 _⟩
    · simp [hc]; exact a8 c
  case fresh => intro x hx; have := a11 x; grind
  all_goals first | assumption | grind

/-- stacks without variables may come and go -/
theorem OInv.frames2 {s : State} {c d fs gs} (h : OInv s)
    (hl : lvars fs = lvars (s.frames c)) (he : evars fs = evars (s.frames c)) (hr : rvars fs = rvars (s.frames c))
    (hl' : lvars gs = lvars (s.frames d)) (he' : evars gs = evars (s.frames d)) (hr' : rvars gs = rvars (s.frames d)) :
    OInv { s with frames := upd (upd s.frames c fs) d gs } := by
  have h1 := h.setFrames (c := c) (fs := fs) hl he hr
  by_cases hcd : d = c
  · subst hcd
    exact h1.setFrames (c := d) (fs := gs) (by simp [hl, hl']) (by simp [he, he']) (by simp [hr, hr'])
  · exact h1.setFrames (c := d) (fs := gs) (by simp [hcd, hl']) (by simp [hcd, he']) (by simp [hcd, hr'])

end Verif.UFiber
