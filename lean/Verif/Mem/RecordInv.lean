import Verif.Mem.Record

/-! # C89: invariants -/

namespace Verif.Mem.Record
open St

/-- 1 if the object is a reference to `p` -/
def refs (p : Pool) : Obj → Nat
  | .live _ (some q) => if q = p then 1 else 0
  | _ => 0

theorem refs_pos {p : Pool} {x : Obj} : 0 < refs p x ↔ ∃ o, x = .live o (some p) := by
  unfold refs
  split
  · rename_i o q
    by_cases h : q = p
    · subst h; simp
    · simp [h]
  · rename_i h
    constructor
    · intro h'; omega
    · rintro ⟨o, rfl⟩; exact (h o p rfl).elim

/-- the number of references to `p` among the first `n` objects -/
def cnt (f : Slot → Obj) (p : Pool) : Nat → Nat
  | 0 => 0
  | n + 1 => cnt f p n + refs p (f n)

theorem cnt_ge {f : Slot → Obj} {p : Pool} {a : Nat} {x : Obj} : ∀ n, n ≤ a → cnt (upd f a x) p n = cnt f p n
  | 0, _ => rfl
  | n + 1, h => by
      have := cnt_ge (f := f) (p := p) (a := a) (x := x) n (by omega)
      simp only [cnt, this, upd_apply]
      rw [if_neg (by omega)]

theorem cnt_lt {f : Slot → Obj} {p : Pool} {a : Nat} {x : Obj} : ∀ n, a < n → cnt (upd f a x) p n + refs p (f a) = cnt f p n + refs p x
  | 0, h => by omega
  | n + 1, h => by
      by_cases e : a = n
      · subst e
        have := cnt_ge (f := f) (p := p) (a := a) (x := x) a (Nat.le_refl _)
        simp only [cnt, this, upd_apply, if_true]; omega
      · have := cnt_lt (f := f) (p := p) (a := a) (x := x) n (by omega)
        simp only [cnt, upd_apply]
        rw [if_neg (by omega)]; omega

theorem cnt_pos {f : Slot → Obj} {p : Pool} : ∀ n, 0 < cnt f p n ↔ ∃ i, i < n ∧ ∃ o, f i = .live o (some p)
  | 0 => by simp [cnt]
  | n + 1 => by
      have ih := cnt_pos (f := f) (p := p) n
      have hr := refs_pos (p := p) (x := f n)
      simp only [cnt]
      constructor
      · intro h
        by_cases h1 : 0 < cnt f p n
        · obtain ⟨i, hi, o, ho⟩ := ih.1 h1
          exact ⟨i, by omega, o, ho⟩
        · obtain ⟨o, ho⟩ := hr.1 (by omega)
          exact ⟨n, by omega, o, ho⟩
      · rintro ⟨i, hi, o, ho⟩
        by_cases e : i = n
        · subst e; have := hr.2 ⟨o, ho⟩; omega
        · have := ih.2 ⟨i, by omega, o, ho⟩; omega

/-- the invariant of objects and storages -/
structure MInv (s : St) : Prop where
  cnt : ∀ p, s.count p = cnt s.obj p s.nObj
  alive : ∀ p, s.pool p = .alive ↔ 0 < s.count p
  fresh : ∀ i, s.nObj ≤ i → s.obj i = .absent
  made : ∀ p, s.pool p = .absent ↔ s.nPool ≤ p

theorem MInv.lt {s : St} (h : MInv s) {i : Nat} {o v} (hi : s.obj i = .live o v) : i < s.nObj := by
  apply Nat.lt_of_not_le; intro hc; rw [h.fresh i hc] at hi; cases hi

theorem MInv.pos {s : St} (h : MInv s) {i o p} (hi : s.obj i = .live o (some p)) : 0 < s.count p := by
  rw [h.cnt]; exact (cnt_pos _).2 ⟨i, h.lt hi, o, hi⟩

theorem MInv.live {s : St} (h : MInv s) {i o p} (hi : s.obj i = .live o (some p)) : s.pool p = .alive := (h.alive p).2 (h.pos hi)

theorem MInv.mk_lt {s : St} (h : MInv s) {i : Nat} {o} {p : Nat} (hi : s.obj i = .live o (some p)) : p < s.nPool := by
  apply Nat.lt_of_not_le; intro hc
  have := (h.made p).2 hc
  rw [h.live hi] at this; cases this

theorem val_live {s : St} {i o v} (h : s.obj i = .live o v) : s.val i = v := by simp [val, h]

theorem MInv.congr {s s' : St} (h : MInv s) (ho : s'.obj = s.obj) (hc : s'.count = s.count) (hp : s'.pool = s.pool) (hn : s'.nObj = s.nObj) (hm : s'.nPool = s.nPool) : MInv s' := by
  obtain ⟨h1, h2, h3, h4⟩ := h
  constructor
  · rw [ho, hc, hn]; exact h1
  · rw [hp, hc]; exact h2
  · rw [ho, hn]; exact h3
  · rw [hp, hm]; exact h4

/-- a state that differs only in what a copy construction writes -/
theorem MInv.copy {s : St} (h : MInv s) {o oi i v} (hi : s.obj i = .live oi v) : MInv (s.copyObj o i) := by
  cases v with
  | none =>
    simp only [copyObj, val_live hi, addRef]
    constructor
    · intro p
      show s.count p = _
      simp only [Record.cnt, upd_apply, if_true, cnt_ge _ (Nat.le_refl _), refs, h.cnt p]; rfl
    · exact h.alive
    · intro j hj
      have hj' : s.nObj + 1 ≤ j := hj
      simp only [upd_apply]; rw [if_neg (by omega)]; exact h.fresh j (by omega)
    · exact h.made
  | some q =>
    have hl := h.pos hi
    have e : s.copyObj o i = { s.needs q with count := upd s.count q (s.count q + 1), obj := upd s.obj s.nObj (.live o (some q)), nObj := s.nObj + 1 } := by
      simp only [copyObj, val_live hi, addRef]
      have : ({ s.needs q with count := upd s.count q (s.count q + 1) } : St).val i = some q := val_live (s := { s.needs q with count := upd s.count q (s.count q + 1) }) hi
      rw [this]; rfl
    rw [e]
    constructor
    · intro p
      have := h.cnt p
      simp only [Record.cnt, upd_apply, if_true, cnt_ge _ (Nat.le_refl _), refs]
      by_cases e : p = q
      · subst e; simp; exact this
      · rw [if_neg e, if_neg (fun a => e a.symm)]; exact this
    · intro p
      show s.pool p = .alive ↔ 0 < upd s.count q (s.count q + 1) p
      rw [h.alive p]; simp only [upd_apply]; split
      · rename_i e; rw [e]; omega
      · rfl
    · intro j hj
      have hj' : s.nObj + 1 ≤ j := hj
      simp only [upd_apply]; rw [if_neg (by omega)]; exact h.fresh j (by omega)
    · exact h.made

theorem MInv.move {s : St} (h : MInv s) {o oi i v oj} (hi : s.obj i = .live oi v) : MInv (s.moveObj o i oj) := by
  have hlt := h.lt hi
  simp only [moveObj, val_live hi]
  constructor
  · intro p
    have h1 := h.cnt p
    have h2 := cnt_lt (f := s.obj) (p := p) (a := i) (x := .live oj none) s.nObj hlt
    rw [hi] at h2
    have h3 : refs p (Obj.live oj none) = 0 := rfl
    have h4 : refs p (Obj.live oi v) = refs p (Obj.live o v) := by cases v <;> rfl
    show s.count p = _
    simp only [Record.cnt, cnt_ge _ (Nat.le_refl _)]
    have h5 : upd (upd s.obj i (.live oj none)) s.nObj (.live o v) s.nObj = .live o v := by simp [upd_apply]
    rw [h5]; omega
  · exact h.alive
  · intro j hj
    have hj' : s.nObj + 1 ≤ j := hj
    simp only [upd_apply]; rw [if_neg (by omega), if_neg (by omega)]; exact h.fresh j (by omega)
  · exact h.made

theorem MInv.drop {s : St} (h : MInv s) {oi i v} (hi : s.obj i = .live oi v) : MInv (s.dropObj i) := by
  have hlt := h.lt hi
  have hf : ∀ j, s.nObj ≤ j → upd s.obj i .absent j = .absent := by
    intro j hj; simp only [upd_apply]; split
    · rfl
    · exact h.fresh j hj
  cases v with
  | none =>
    simp only [dropObj, val_live hi, release]
    refine ⟨?_, h.alive, hf, h.made⟩
    intro p
    have h2 := cnt_lt (f := s.obj) (p := p) (a := i) (x := .absent) s.nObj hlt
    rw [hi] at h2
    have h1 := h.cnt p
    have h3 : refs p (Obj.live oi none) = 0 := rfl
    have h4 : refs p Obj.absent = 0 := rfl
    show s.count p = Record.cnt (upd s.obj i .absent) p s.nObj
    omega
  | some q =>
    have hpos := h.pos hi
    have hq := h.live hi
    have hc : ∀ p, upd s.count q (s.count q - 1) p = Record.cnt (upd s.obj i .absent) p s.nObj := by
      intro p
      have h2 := cnt_lt (f := s.obj) (p := p) (a := i) (x := .absent) s.nObj hlt
      rw [hi] at h2
      have h1 := h.cnt p
      have h4 : refs p Obj.absent = 0 := rfl
      have h3 : refs p (Obj.live oi (some q)) = if q = p then 1 else 0 := rfl
      simp only [upd_apply]
      by_cases e : p = q
      · subst e; simp only [if_true] at h3 ⊢; omega
      · rw [if_neg e]; rw [if_neg (fun a => e a.symm)] at h3; omega
    simp only [dropObj, val_live hi, release]
    by_cases e : s.count q - 1 = 0
    · have e' : (s.needs q).count q - 1 = 0 := e
      simp only [e', if_true]
      refine ⟨?_, ?_, hf, ?_⟩
      · intro p; have := hc p; rw [e] at this; exact this
      · intro p
        show upd s.pool q .deleted p = .alive ↔ 0 < upd s.count q 0 p
        simp only [upd_apply]; split
        · simp
        · exact h.alive p
      · intro p
        show upd s.pool q .deleted p = .absent ↔ s.nPool ≤ p
        simp only [upd_apply]; split
        · rename_i ep; subst ep
          have := h.mk_lt hi
          constructor
          · intro hc; cases hc
          · intro hc; omega
        · exact h.made p
    · have e' : ¬ (s.needs q).count q - 1 = 0 := e
      simp only [e', if_false]
      refine ⟨hc, ?_, hf, h.made⟩
      intro p
      show s.pool p = .alive ↔ 0 < upd s.count q (s.count q - 1) p
      rw [h.alive p]; simp only [upd_apply]; split
      · rename_i ep; subst ep; omega
      · rfl

/-! ### What the operations change -/

section Ops
variable (s : St) (k : Stk) (p : Pool) (i : Nat) (o oi : Owner) (v : Option Pool)
@[simp] theorem needs_obj : (s.needs p).obj = s.obj := rfl
@[simp] theorem needs_stk : (s.needs p).stk = s.stk := rfl
@[simp] theorem needs_nStk : (s.needs p).nStk = s.nStk := rfl
@[simp] theorem needs_nObj : (s.needs p).nObj = s.nObj := rfl
@[simp] theorem needs_pool : (s.needs p).pool = s.pool := rfl
@[simp] theorem addRef_obj : (s.addRef v).obj = s.obj := by cases v <;> rfl
@[simp] theorem addRef_stk : (s.addRef v).stk = s.stk := by cases v <;> rfl
@[simp] theorem addRef_nStk : (s.addRef v).nStk = s.nStk := by cases v <;> rfl
@[simp] theorem addRef_nObj : (s.addRef v).nObj = s.nObj := by cases v <;> rfl
@[simp] theorem addRef_pool : (s.addRef v).pool = s.pool := by cases v <;> rfl
@[simp] theorem release_obj : (s.release v).obj = s.obj := by cases v <;> simp only [release]; split <;> rfl
@[simp] theorem release_stk : (s.release v).stk = s.stk := by cases v <;> simp only [release]; split <;> rfl
@[simp] theorem release_nStk : (s.release v).nStk = s.nStk := by cases v <;> simp only [release]; split <;> rfl
@[simp] theorem release_nObj : (s.release v).nObj = s.nObj := by cases v <;> simp only [release]; split <;> rfl
@[simp] theorem needs_back : (s.needs p).back = s.back := rfl
@[simp] theorem addRef_back : (s.addRef v).back = s.back := by cases v <;> rfl
@[simp] theorem release_back : (s.release v).back = s.back := by cases v <;> simp only [release]; split <;> rfl
@[simp] theorem copyObj_back : (s.copyObj o i).back = s.back := by simp [copyObj]
@[simp] theorem moveObj_back : (s.moveObj o i oi).back = s.back := rfl
@[simp] theorem dropObj_back : (s.dropObj i).back = s.back := by simp [dropObj]
@[simp] theorem copyObj_stk : (s.copyObj o i).stk = s.stk := by simp [copyObj]
@[simp] theorem copyObj_nStk : (s.copyObj o i).nStk = s.nStk := by simp [copyObj]
@[simp] theorem copyObj_obj : (s.copyObj o i).obj = upd s.obj s.nObj (.live o (s.val i)) := by simp [copyObj, val]
@[simp] theorem copyObj_pool : (s.copyObj o i).pool = s.pool := by simp [copyObj]
@[simp] theorem moveObj_stk : (s.moveObj o i oi).stk = s.stk := rfl
@[simp] theorem moveObj_nStk : (s.moveObj o i oi).nStk = s.nStk := rfl
@[simp] theorem moveObj_pool : (s.moveObj o i oi).pool = s.pool := rfl
@[simp] theorem moveObj_obj : (s.moveObj o i oi).obj = upd (upd s.obj i (.live oi none)) s.nObj (.live o (s.val i)) := rfl
@[simp] theorem dropObj_stk : (s.dropObj i).stk = s.stk := by simp [dropObj]
@[simp] theorem dropObj_nStk : (s.dropObj i).nStk = s.nStk := by simp [dropObj]
@[simp] theorem dropObj_nObj : (s.dropObj i).nObj = s.nObj := by simp [dropObj]
@[simp] theorem dropObj_obj : (s.dropObj i).obj = upd s.obj i .absent := by simp [dropObj]
@[simp] theorem dealloc_stk : (s.deallocate i k p).stk = s.stk := by simp only [deallocate]; split <;> rfl
@[simp] theorem dealloc_nStk : (s.deallocate i k p).nStk = s.nStk := by simp only [deallocate]; split <;> rfl
@[simp] theorem dealloc_obj : (s.deallocate i k p).obj = s.obj := by simp only [deallocate]; split <;> rfl
@[simp] theorem dealloc_pool : (s.deallocate i k p).pool = s.pool := by simp only [deallocate]; split <;> rfl
theorem dealloc_minv {s : St} (h : MInv s) : MInv (s.deallocate i k p) := by
  simp only [deallocate]; split <;> exact h.congr rfl rfl rfl rfl rfl
end Ops

/-! ### The invariant of the phases -/

def memOf : Phase → Option Slot
  | .initialising _ _ _ r | .failing _ _ _ r | .complete _ r | .dying _ r _ => some r
  | _ => none
def locOf : Phase → Option Slot
  | .dying _ _ l | .giving _ l | .leaving _ l => some l
  | _ => none

def PhaseOk (f : Slot → Obj) (k : Stk) : Phase → Prop
  | .absent => True
  | .held p v => f v = .live .user (some p)
  | .constructing p u _ => f u = .live .user (some p)
  | .initialising p u rv r => f r = .live (.member k) (some p) ∧ f u = .live .user (if rv then none else some p)
  | .failing p u rv r => f r = .live (.member k) (some p) ∧ f u = .live .user (if rv then none else some p)
  | .failing2 p u rv => f u = .live .user (if rv then none else some p)
  | .complete p r => f r = .live (.member k) (some p)
  | .dying p r l => f r = .live (.member k) none ∧ f l = .live (.localOf k) (some p)
  | .giving p l => f l = .live (.localOf k) (some p)
  | .leaving p l => f l = .live (.localOf k) (some p)
  | .returned _ => True

theorem PhaseOk.stable {f f' : Slot → Obj} {k : Stk} {ph : Phase} (h : PhaseOk f k ph) (hu : ∀ i b v, uses ph = some (i, b) → f i = .live .user v → f' i = f i)
    (hm : ∀ i v, f i = .live (.member k) v ∨ f i = .live (.localOf k) v → f' i = f i) : PhaseOk f' k ph := by
  cases ph with
  | absent => trivial
  | returned => trivial
  | held p v => exact (hu v _ _ rfl h).trans h
  | constructing p u rv => exact (hu u _ _ rfl h).trans h
  | initialising p u rv r => exact ⟨(hm r _ (.inl h.1)).trans h.1, (hu u _ _ rfl h.2).trans h.2⟩
  | failing p u rv r => exact ⟨(hm r _ (.inl h.1)).trans h.1, (hu u _ _ rfl h.2).trans h.2⟩
  | failing2 p u rv => exact (hu u _ _ rfl h).trans h
  | complete p r => exact (hm r _ (.inl h)).trans h
  | dying p r l => exact ⟨(hm r _ (.inl h.1)).trans h.1, (hm l _ (.inr h.2)).trans h.2⟩
  | giving p l => exact (hm l _ (.inr h)).trans h
  | leaving p l => exact (hm l _ (.inr h)).trans h

structure PInv (s : St) : Prop where
  ph : ∀ k, PhaseOk s.obj k (s.stk k)
  mem : ∀ k i v, s.obj i = .live (.member k) v → memOf (s.stk k) = some i
  loc : ∀ k i v, s.obj i = .live (.localOf k) v → locOf (s.stk k) = some i
  excl : ∀ k k' i b b', k ≠ k' → uses (s.stk k) = some (i, b) → uses (s.stk k') = some (i, b') → b = false ∧ b' = false
  fresh : ∀ k, s.nStk ≤ k → s.stk k = .absent

theorem PInv.same {s s' : St} (h : PInv s) (hs : s'.stk = s.stk) (hn : s'.nStk = s.nStk)
    (hu : ∀ k i b v, uses (s.stk k) = some (i, b) → s.obj i = .live .user v → s'.obj i = s.obj i)
    (hm : ∀ k i v, s.obj i = .live (.member k) v ∨ s.obj i = .live (.localOf k) v → s'.obj i = s.obj i)
    (hm' : ∀ i o v, o ≠ .user → s'.obj i = .live o v → s.obj i = .live o v) : PInv s' := by
  constructor
  · intro k; rw [hs]; exact (h.ph k).stable (hu k) (hm k)
  · intro k i v hi; rw [hs]; exact h.mem k i v (hm' i _ v (by simp) hi)
  · intro k i v hi; rw [hs]; exact h.loc k i v (hm' i _ v (by simp) hi)
  · rw [hs]; exact h.excl
  · rw [hs, hn]; exact h.fresh

theorem PInv.at {s s' : St} (h : PInv s) (k : Nat) (ph' : Phase) (hs : s'.stk = upd s.stk k ph') (hn : s.nStk ≤ s'.nStk) (hk : k < s'.nStk)
    (hph : PhaseOk s'.obj k ph')
    (hu : ∀ k' i b v, k' ≠ k → uses (s.stk k') = some (i, b) → s.obj i = .live .user v → s'.obj i = s.obj i)
    (hm : ∀ k' i v, k' ≠ k → s.obj i = .live (.member k') v ∨ s.obj i = .live (.localOf k') v → s'.obj i = s.obj i)
    (hm' : ∀ i o v, o ≠ .user → o ≠ .member k → o ≠ .localOf k → s'.obj i = .live o v → s.obj i = .live o v)
    (hmk : ∀ i v, s'.obj i = .live (.member k) v → memOf ph' = some i)
    (hlk : ∀ i v, s'.obj i = .live (.localOf k) v → locOf ph' = some i)
    (hx : ∀ k' i b b', k' ≠ k → uses ph' = some (i, b) → uses (s.stk k') = some (i, b') → b = false ∧ b' = false) : PInv s' := by
  constructor
  · intro k'; rw [hs, upd_apply]; split
    · rename_i e; subst e; exact hph
    · rename_i e; exact (h.ph k').stable (fun i b v => hu k' i b v e) (fun i v => hm k' i v e)
  · intro k' i v hi; rw [hs, upd_apply]; split
    · rename_i e; subst e; exact hmk i v hi
    · rename_i e; exact h.mem k' i v (hm' i _ v (by simp) (by simpa using e) (by simp) hi)
  · intro k' i v hi; rw [hs, upd_apply]; split
    · rename_i e; subst e; exact hlk i v hi
    · rename_i e; exact h.loc k' i v (hm' i _ v (by simp) (by simp) (by simpa using e) hi)
  · intro a b i c d hab h1 h2
    rw [hs, upd_apply] at h1 h2
    split at h1
    · rename_i ea
      rw [if_neg (fun eb => hab (ea.trans eb.symm))] at h2
      exact hx b i c d (fun eb => hab (ea.trans eb.symm)) h1 h2
    · rename_i ea
      split at h2
      · exact (hx a i d c ea h2 h1).symm
      · exact h.excl a b i c d hab h1 h2
  · intro k' hk'; rw [hs, upd_apply]; rw [if_neg (by omega)]; exact h.fresh k' (by omega)

theorem PInv.lt {s : St} (h : PInv s) {k : Nat} (hk : s.stk k ≠ .absent) : k < s.nStk := by
  apply Nat.lt_of_not_le; intro hc; exact hk (h.fresh k hc)

structure Inv (s : St) : Prop where
  m : MInv s
  p : PInv s

theorem inv_init : Inv init := by
  refine ⟨⟨fun p => rfl, fun p => ?_, fun i _ => rfl, fun p => ?_⟩, ⟨fun k => trivial, ?_, ?_, ?_, fun k _ => rfl⟩⟩
  · simp [init]
  · simp [init]
  · intro k i v h; cases h
  · intro k i v h; cases h
  · intro k k' i b b' _ h; cases h

theorem inv_step {s s' : St} (h : Inv s) (hs : Step s s') : Inv s' := by
  have hM := h.m
  have hP := h.p
  cases hs with
  | make =>
    refine ⟨⟨?_, ?_, ?_, ?_⟩, ?_⟩
    · intro p
      have h1 := hM.cnt p
      simp only [Record.cnt, upd_apply, if_true, cnt_ge _ (Nat.le_refl _), refs]
      by_cases e : p = s.nPool
      · have h0 : s.count p = 0 := by
          have h2 := (hM.made p).2 (Nat.le_of_eq e.symm)
          have h3 := hM.alive p
          rw [h2] at h3
          have : ¬ 0 < s.count p := fun hc => by cases h3.2 hc
          omega
        subst e
        have h4 : cnt s.obj s.nPool s.nObj = 0 := by omega
        simp [h4]
      · rw [if_neg e, if_neg (fun a => e a.symm)]; exact h1
    · intro p; simp only [upd_apply]; split
      · simp
      · exact hM.alive p
    · intro j hj
      have hj' : s.nObj + 1 ≤ j := hj
      simp only [upd_apply]; rw [if_neg (by omega)]; exact hM.fresh j (by omega)
    · intro p; simp only [upd_apply]; split
      · rename_i e; subst e; simp; 
      · have := hM.made p
        rw [this]; show s.nPool ≤ p ↔ s.nPool + 1 ≤ p
        have : p ≠ s.nPool := by assumption
        omega
    · have hne : ∀ i o v, s.obj i = .live o v → i ≠ s.nObj := fun i o v hi e => Nat.lt_irrefl _ (e ▸ hM.lt hi)
      refine hP.same rfl rfl ?_ ?_ ?_
      · intro k i b v _ hi; simp only [upd_apply]; rw [if_neg (hne i _ _ hi)]
      · intro k i v hi; simp only [upd_apply]; rcases hi with hi | hi <;> rw [if_neg (hne i _ _ hi)]
      · intro i o v ho; simp only [upd_apply]; split
        · intro hc; cases hc; exact (ho rfl).elim
        · exact id
  | copy u v hu hsh =>
    have hne : ∀ i o v, s.obj i = .live o v → i ≠ s.nObj := fun i o v hi e => Nat.lt_irrefl _ (e ▸ hM.lt hi)
    refine ⟨hM.copy hu, hP.same (by simp) (by simp) ?_ ?_ ?_⟩
    · intro k i b v _ hi; simp only [copyObj_obj, upd_apply]; rw [if_neg (hne i _ _ hi)]
    · intro k i v hi; simp only [copyObj_obj, upd_apply]; rcases hi with hi | hi <;> rw [if_neg (hne i _ _ hi)]
    · intro i o v ho; simp only [copyObj_obj, upd_apply]; split
      · intro hc; cases hc; exact (ho rfl).elim
      · exact id
  | move u v hu hf =>
    have hne : ∀ i o v, s.obj i = .live o v → i ≠ s.nObj := fun i o v hi e => Nat.lt_irrefl _ (e ▸ hM.lt hi)
    refine ⟨hM.move hu, hP.same (by simp) (by simp) ?_ ?_ ?_⟩
    · intro k i b v hus hi; simp only [moveObj_obj, upd_apply]; rw [if_neg (hne i _ _ hi), if_neg]
      rintro rfl; exact hf k b hus
    · intro k i v hi; simp only [moveObj_obj, upd_apply]
      rcases hi with hi | hi <;> rw [if_neg (hne i _ _ hi), if_neg] <;> (rintro rfl; rw [hu] at hi; cases hi)
    · intro i o v ho; simp only [moveObj_obj, upd_apply]; split
      · intro hc; cases hc; exact (ho rfl).elim
      · split
        · intro hc; cases hc; exact (ho rfl).elim
        · exact id
  | drop u v hu hf =>
    refine ⟨hM.drop hu, hP.same (by simp) (by simp) ?_ ?_ ?_⟩
    · intro k i b v hus hi; simp only [dropObj_obj, upd_apply]; rw [if_neg]
      rintro rfl; exact hf k b hus
    · intro k i v hi; simp only [dropObj_obj, upd_apply]
      rcases hi with hi | hi <;> rw [if_neg] <;> (rintro rfl; rw [hu] at hi; cases hi)
    · intro i o v ho; simp only [dropObj_obj, upd_apply]; split
      · intro hc; cases hc
      · exact id
  | hold u p hu hsh =>
    refine ⟨hM.congr rfl rfl rfl rfl rfl, hP.at s.nStk _ rfl (Nat.le_succ _) (Nat.lt_succ_self _) hu ?_ ?_ ?_ ?_ ?_ ?_⟩
    · intros; rfl
    · intros; rfl
    · intro i o v _ _ _; exact id
    · intro i v hi
      have := hP.mem _ i v hi
      rw [hP.fresh _ (Nat.le_refl _)] at this; cases this
    · intro i v hi
      have := hP.loc _ i v hi
      rw [hP.fresh _ (Nat.le_refl _)] at this; cases this
    · intro k' i b b' _ h1 h2
      cases h1
      cases b' with
      | false => exact ⟨rfl, rfl⟩
      | true => exact (hsh _ h2).elim
  | unhold k p u hk =>
    refine ⟨(dealloc_minv _ _ _ hM).congr rfl rfl rfl rfl rfl, hP.at k (.returned p) (by simp) (by simp) ?_ trivial ?_ ?_ ?_ ?_ ?_ ?_⟩
    · simpa using hP.lt (by rw [hk]; simp)
    · intros; simp
    · intros; simp
    · intro i o v _ _ _; simp
    · intro i v hi
      have := hP.mem k i v (by simpa using hi)
      rw [hk] at this; cases this
    · intro i v hi
      have := hP.loc k i v (by simpa using hi)
      rw [hk] at this; cases this
    · intro k' i b b' _ h1 h2; cases h1
  | create1 u p rv hu hsh =>
    refine ⟨hM.congr rfl rfl rfl rfl rfl, hP.at s.nStk _ rfl (Nat.le_succ _) (Nat.lt_succ_self _) hu ?_ ?_ ?_ ?_ ?_ ?_⟩
    · intros; rfl
    · intros; rfl
    · intro i o v _ _ _; exact id
    · intro i v hi
      have := hP.mem _ i v hi
      rw [hP.fresh _ (Nat.le_refl _)] at this; cases this
    · intro i v hi
      have := hP.loc _ i v hi
      rw [hP.fresh _ (Nat.le_refl _)] at this; cases this
    · intro k' i b b' _ h1 h2
      cases h1
      cases rv with
      | true => exact (hsh _ _ h2).elim
      | false =>
        cases b' with
        | false => exact ⟨rfl, rfl⟩
        | true => exact (hsh _ h2).elim
  | create2 k p v u rv hk hu hsh =>
    refine ⟨hM.congr rfl rfl rfl rfl rfl, hP.at k _ rfl (Nat.le_refl _) (hP.lt (by rw [hk]; simp)) hu ?_ ?_ ?_ ?_ ?_ ?_⟩
    · intros; rfl
    · intros; rfl
    · intro i o v _ _ _; exact id
    · intro i v hi
      have := hP.mem _ i v hi
      rw [hk] at this; cases this
    · intro i v hi
      have := hP.loc _ i v hi
      rw [hk] at this; cases this
    · intro k' i b b' hkk h1 h2
      cases h1
      cases rv with
      | true => exact (hsh _ _ hkk h2).elim
      | false =>
        cases b' with
        | false => exact ⟨rfl, rfl⟩
        | true => exact (hsh _ h2).elim
  | construct k p u rv hk =>
    have hu : s.obj u = .live .user (some p) := by have := hP.ph k; rw [hk] at this; exact this
    have hne : ∀ i o v, s.obj i = .live o v → i ≠ s.nObj := fun i o v hi e => Nat.lt_irrefl _ (e ▸ hM.lt hi)
    have hv := val_live hu
    have hkl : k < s.nStk := hP.lt (by rw [hk]; simp)
    cases rv with
    | false =>
      refine ⟨(hM.copy (o := .member k) hu).congr rfl rfl rfl rfl rfl, hP.at k (.initialising p u false s.nObj) (by simp) (by simp) (by simpa using hkl) ?_ ?_ ?_ ?_ ?_ ?_ ?_⟩
      · simp only [PhaseOk, Bool.false_eq_true, if_false, needs_obj, copyObj_obj, hv, upd_apply]
        rw [if_neg (hne u _ _ hu)]
        exact ⟨by simp, by simpa using hu⟩
      · intro k' i b v _ _ hi; simp only [Bool.false_eq_true, if_false, needs_obj, copyObj_obj, upd_apply]; rw [if_neg (hne i _ _ hi)]
      · intro k' i v _ hi; simp only [Bool.false_eq_true, if_false, needs_obj, copyObj_obj, upd_apply]; rcases hi with hi | hi <;> rw [if_neg (hne i _ _ hi)]
      · intro i o v _ ho _; simp only [Bool.false_eq_true, if_false, needs_obj, copyObj_obj, upd_apply]; split
        · intro hc; cases hc; exact (ho rfl).elim
        · exact id
      · intro i v; simp only [Bool.false_eq_true, if_false, needs_obj, copyObj_obj, upd_apply]; split
        · rename_i e; intro _; rw [e]; rfl
        · intro hi; have := hP.mem k i v hi; rw [hk] at this; cases this
      · intro i v; simp only [Bool.false_eq_true, if_false, needs_obj, copyObj_obj, upd_apply]; split
        · intro hc; cases hc
        · intro hi; have := hP.loc k i v hi; rw [hk] at this; cases this
      · intro k' i b b' hkk h1 h2
        exact hP.excl k k' i b b' (Ne.symm hkk) (by rw [hk]; exact h1) h2
    | true =>
      have hother : ∀ k' b, k' ≠ k → uses (s.stk k') ≠ some (u, b) := by
        intro k' b hkk hc
        have := hP.excl k k' u true b (Ne.symm hkk) (by rw [hk]; rfl) hc
        cases this.1
      refine ⟨(hM.move (o := .member k) (oj := .user) hu).congr rfl rfl rfl rfl rfl, hP.at k (.initialising p u true s.nObj) rfl (Nat.le_refl _) hkl ?_ ?_ ?_ ?_ ?_ ?_ ?_⟩
      · simp only [PhaseOk, if_true, needs_obj, moveObj_obj, hv, upd_apply]
        rw [if_neg (hne u _ _ hu)]
        exact ⟨trivial, rfl⟩
      · intro k' i b v hkk hus hi; simp only [if_true, needs_obj, moveObj_obj, upd_apply]; rw [if_neg (hne i _ _ hi), if_neg]
        rintro rfl; exact hother k' b hkk hus
      · intro k' i v _ hi; simp only [if_true, needs_obj, moveObj_obj, upd_apply]
        rcases hi with hi | hi <;> rw [if_neg (hne i _ _ hi), if_neg] <;> (rintro rfl; rw [hu] at hi; cases hi)
      · intro i o v ho1 ho _; simp only [if_true, needs_obj, moveObj_obj, upd_apply]; split
        · intro hc; cases hc; exact (ho rfl).elim
        · split
          · intro hc; cases hc; exact (ho1 rfl).elim
          · exact id
      · intro i v; simp only [if_true, needs_obj, moveObj_obj, upd_apply]; split
        · rename_i e; intro _; rw [e]; rfl
        · split
          · intro hc; cases hc
          · intro hi; have := hP.mem k i v hi; rw [hk] at this; cases this
      · intro i v; simp only [if_true, needs_obj, moveObj_obj, upd_apply]; split
        · intro hc; cases hc
        · split
          · intro hc; cases hc
          · intro hi; have := hP.loc k i v hi; rw [hk] at this; cases this
      · intro k' i b b' hkk h1 h2
        exact hP.excl k k' i b b' (Ne.symm hkk) (by rw [hk]; exact h1) h2
  | created k p u rv r hk =>
    have hr := hP.ph k
    rw [hk] at hr
    refine ⟨hM.congr rfl rfl rfl rfl rfl, hP.at k _ rfl (Nat.le_refl _) (hP.lt (by rw [hk]; simp)) hr.1 ?_ ?_ ?_ ?_ ?_ ?_⟩
    · intros; rfl
    · intros; rfl
    · intro i o v _ _ _; exact id
    · intro i v hi; have := hP.mem k i v hi; rw [hk] at this; exact this
    · intro i v hi; have := hP.loc k i v hi; rw [hk] at this; exact this
    · intro k' i b b' _ h1; cases h1
  | getcontextFails k p u rv r hk =>
    have hr := hP.ph k
    rw [hk] at hr
    refine ⟨hM.congr rfl rfl rfl rfl rfl, hP.at k _ rfl (Nat.le_refl _) (hP.lt (by rw [hk]; simp)) hr ?_ ?_ ?_ ?_ ?_ ?_⟩
    · intros; rfl
    · intros; rfl
    · intro i o v _ _ _; exact id
    · intro i v hi; have := hP.mem k i v hi; rw [hk] at this; exact this
    · intro i v hi; have := hP.loc k i v hi; rw [hk] at this; exact this
    · intro k' i b b' hkk h1 h2
      exact hP.excl k k' i b b' (Ne.symm hkk) (by rw [hk]; exact h1) h2
  | failed k p u rv r hk =>
    have hr := hP.ph k
    rw [hk] at hr
    have hM' : MInv (s.needs p) := hM.congr rfl rfl rfl rfl rfl
    refine ⟨(hM'.drop (i := r) hr.1).congr rfl rfl rfl rfl rfl, hP.at k (.failing2 p u rv) (by simp) (by simp) ?_ ?_ ?_ ?_ ?_ ?_ ?_ ?_⟩
    · simpa using hP.lt (by rw [hk]; simp)
    · simp only [PhaseOk, dropObj_obj, needs_obj, upd_apply]
      rw [if_neg]; exact hr.2
      rintro rfl
      have := hr.1.symm.trans hr.2; cases this
    · intro k' i b v _ _ hi; simp only [dropObj_obj, needs_obj, upd_apply]; rw [if_neg]
      rintro rfl; have := hr.1.symm.trans hi; cases this
    · intro k' i v hkk hi; simp only [dropObj_obj, needs_obj, upd_apply]
      rcases hi with hi | hi <;> rw [if_neg] <;> (rintro rfl; have := hr.1.symm.trans hi; cases this)
      exact hkk rfl
    · intro i o v _ _ _; simp only [dropObj_obj, needs_obj, upd_apply]; split
      · intro hc; cases hc
      · exact id
    · intro i v; simp only [dropObj_obj, needs_obj, upd_apply]; split
      · intro hc; cases hc
      · rename_i e; intro hi; have := hP.mem k i v hi; rw [hk] at this; cases this; exact (e rfl).elim
    · intro i v; simp only [dropObj_obj, needs_obj, upd_apply]; split
      · intro hc; cases hc
      · intro hi; have := hP.loc k i v hi; rw [hk] at this; cases this
    · intro k' i b b' hkk h1 h2
      exact hP.excl k k' i b b' (Ne.symm hkk) (by rw [hk]; exact h1) h2
  | failed2 k p u rv hk =>
    refine ⟨(dealloc_minv _ _ _ hM).congr rfl rfl rfl rfl rfl, hP.at k (.returned p) (by simp) (by simp) ?_ trivial ?_ ?_ ?_ ?_ ?_ ?_⟩
    · simpa using hP.lt (by rw [hk]; simp)
    · intros; simp
    · intros; simp
    · intro i o v _ _ _; simp
    · intro i v hi
      have := hP.mem k i v (by simpa using hi)
      rw [hk] at this; cases this
    · intro i v hi
      have := hP.loc k i v (by simpa using hi)
      rw [hk] at this; cases this
    · intro k' i b b' _ h1 h2; cases h1
  | destroy k p r hk =>
    have hr := hP.ph k
    rw [hk] at hr
    have hr' : s.obj r = .live (.member k) (some p) := hr
    have hM' : MInv (s.needs p) := hM.congr rfl rfl rfl rfl rfl
    have hne : ∀ i o v, s.obj i = .live o v → i ≠ s.nObj := fun i o v hi e => Nat.lt_irrefl _ (e ▸ hM.lt hi)
    have hv : (s.needs p).val r = some p := val_live hr
    refine ⟨(hM'.move (o := .localOf k) (oj := .member k) (i := r) hr').congr rfl rfl rfl rfl rfl, hP.at k (.dying p r s.nObj) rfl (Nat.le_refl _) ?_ ?_ ?_ ?_ ?_ ?_ ?_ ?_⟩
    · exact hP.lt (by rw [hk]; simp)
    · simp only [PhaseOk, moveObj_obj, hv, needs_obj, needs_nObj, upd_apply]
      rw [if_neg (hne r _ _ hr')]; exact ⟨by simp, by simp⟩
    · intro k' i b v hkk _ hi; simp only [moveObj_obj, needs_obj, needs_nObj, upd_apply]; rw [if_neg (hne i _ _ hi), if_neg]
      rintro rfl; have := hr'.symm.trans hi; cases this
    · intro k' i v hkk hi; simp only [moveObj_obj, needs_obj, needs_nObj, upd_apply]
      rcases hi with hi | hi <;> rw [if_neg (hne i _ _ hi), if_neg] <;> (rintro rfl; have := hr'.symm.trans hi; cases this)
      exact hkk rfl
    · intro i o v ho1 ho ho2; simp only [moveObj_obj, needs_obj, needs_nObj, upd_apply]; split
      · intro hc; cases hc; exact (ho2 rfl).elim
      · split
        · intro hc; cases hc; exact (ho rfl).elim
        · exact id
    · intro i v; simp only [moveObj_obj, needs_obj, needs_nObj, upd_apply]; split
      · intro hc; cases hc
      · split
        · rename_i e; intro _; rw [e]; rfl
        · intro hi; have := hP.mem k i v hi; rw [hk] at this; exact this
    · intro i v; simp only [moveObj_obj, needs_obj, needs_nObj, upd_apply]; split
      · rename_i e; intro _; rw [e]; rfl
      · split
        · intro hc; cases hc
        · intro hi; have := hP.loc k i v hi; rw [hk] at this; cases this
    · intro k' i b b' _ h1; cases h1
  | destroyRecord k p r l hk =>
    have hr := hP.ph k
    rw [hk] at hr
    have hM' : MInv (s.needs p) := hM.congr rfl rfl rfl rfl rfl
    refine ⟨(hM'.drop (i := r) hr.1).congr rfl rfl rfl rfl rfl, hP.at k (.giving p l) (by simp) (by simp) ?_ ?_ ?_ ?_ ?_ ?_ ?_ ?_⟩
    · simpa using hP.lt (by rw [hk]; simp)
    · simp only [PhaseOk, dropObj_obj, needs_obj, upd_apply]
      rw [if_neg]; exact hr.2
      rintro rfl
      have := hr.1.symm.trans hr.2; cases this
    · intro k' i b v _ _ hi; simp only [dropObj_obj, needs_obj, upd_apply]; rw [if_neg]
      rintro rfl; have := hr.1.symm.trans hi; cases this
    · intro k' i v hkk hi; simp only [dropObj_obj, needs_obj, upd_apply]
      rcases hi with hi | hi <;> rw [if_neg] <;> (rintro rfl; have := hr.1.symm.trans hi; cases this)
      exact hkk rfl
    · intro i o v _ _ _; simp only [dropObj_obj, needs_obj, upd_apply]; split
      · intro hc; cases hc
      · exact id
    · intro i v; simp only [dropObj_obj, needs_obj, upd_apply]; split
      · intro hc; cases hc
      · rename_i e; intro hi; have := hP.mem k i v hi; rw [hk] at this; cases this; exact (e rfl).elim
    · intro i v; simp only [dropObj_obj, needs_obj, upd_apply]; split
      · intro hc; cases hc
      · intro hi; have := hP.loc k i v hi; rw [hk] at this; exact this
    · intro k' i b b' _ h1; cases h1
  | give k p l hk =>
    have hr := hP.ph k
    rw [hk] at hr
    refine ⟨(dealloc_minv _ _ _ hM).congr rfl rfl rfl rfl rfl, hP.at k (.leaving p l) (by simp) (by simp) ?_ (by simpa [PhaseOk] using hr) ?_ ?_ ?_ ?_ ?_ ?_⟩
    · simpa using hP.lt (by rw [hk]; simp)
    · intros; simp
    · intros; simp
    · intro i o v _ _ _; simp
    · intro i v hi
      have := hP.mem k i v (by simpa using hi)
      rw [hk] at this; cases this
    · intro i v hi
      have := hP.loc k i v (by simpa using hi)
      rw [hk] at this; exact this
    · intro k' i b b' _ h1 h2; cases h1
  | leave k p l hk =>
    have hr := hP.ph k
    rw [hk] at hr
    have hr' : s.obj l = .live (.localOf k) (some p) := hr
    refine ⟨(hM.drop (i := l) hr').congr rfl rfl rfl rfl rfl, hP.at k (.returned p) (by simp) (by simp) ?_ trivial ?_ ?_ ?_ ?_ ?_ ?_⟩
    · simpa using hP.lt (by rw [hk]; simp)
    · intro k' i b v _ _ hi; simp only [dropObj_obj, upd_apply]; rw [if_neg]
      rintro rfl; have := hr'.symm.trans hi; cases this
    · intro k' i v hkk hi; simp only [dropObj_obj, upd_apply]
      rcases hi with hi | hi <;> rw [if_neg] <;> (rintro rfl; have := hr'.symm.trans hi; cases this)
      exact hkk rfl
    · intro i o v _ _ _; simp only [dropObj_obj, upd_apply]; split
      · intro hc; cases hc
      · exact id
    · intro i v; simp only [dropObj_obj, upd_apply]; split
      · intro hc; cases hc
      · intro hi; have := hP.mem k i v hi; rw [hk] at this; cases this
    · intro i v; simp only [dropObj_obj, upd_apply]; split
      · intro hc; cases hc
      · rename_i e; intro hi; have := hP.loc k i v hi; rw [hk] at this; cases this; exact (e rfl).elim
    · intro k' i b b' _ h1; cases h1

theorem reach_inv {s : St} (h : Reach s) : Inv s := by
  induction h with
  | init => exact inv_init
  | step _ hs ih => exact inv_step ih hs

theorem ReachOk.reach {s : St} (h : ReachOk s) : Reach s := by
  induction h with
  | init => exact .init
  | step _ hs _ ih => exact .step ih hs

end Verif.Mem.Record
