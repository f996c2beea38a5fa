import Verif.Asm.Many

/-!
# Which bytes a routine reads and writes (C81)

Which memory the execution of a routine accesses, instruction by instruction; what an execution does depends only on the bytes it accesses, and it changes only bytes it
writes.  `Footprint` says, for a port, that its routines access nothing but the stacks involved.  (No code of `/repo` is modelled in this file beyond the
instructions of `Machine`.)
-/

namespace Verif.Asm
variable {A : Arch}

/-- bytes instruction `i` reads in state `s` -/
def Instr.rd (s : St A) (i : Instr A) (a : A.W) : Prop :=
  match i with
  | .ld _ b o => InR a (s.gpr b + off A o) A.k
  | .fld f b o => InR a (s.gpr b + off A o) (A.fb f)
  | _ => False

/-- bytes instruction `i` writes in state `s` -/
def Instr.wr (s : St A) (i : Instr A) (a : A.W) : Prop :=
  match i with
  | .st _ b o => InR a (s.gpr b + off A o) A.k
  | .sti _ b o => InR a (s.gpr b + off A o) A.k
  | .fst f b o => InR a (s.gpr b + off A o) (A.fb f)
  | _ => False

/-- kind of access -/
inductive Acc
  | rd
  | wr

def Instr.acc : Acc → St A → Instr A → A.W → Prop
  | .rd => Instr.rd
  | .wr => Instr.wr

/-- bytes that straight-line code accesses when it is executed from `s` -/
def accs (x : Acc) (e : Env A) : List (Instr A) → St A → A.W → Prop
  | [], _, _ => False
  | i :: is, s, a => i.acc x s a ∨ accs x e is (step e s i) a

/-- bytes that a routine accesses when it is executed from `s` -/
def Code.accs (x : Acc) (e : Env A) : Code A → St A → A.W → Prop
  | .jmp is _, s, a => Asm.accs x e is s a
  | .brz is r z nz, s, a => Asm.accs x e is s a ∨
      if (steps e is s).gpr r = 0#_ then Code.accs x e z (steps e is s) a else Code.accs x e nz (steps e is s) a

/-- several routines one after the other (a switch and the stub it enters) -/
def execs (e : Env A) : List (Code A) → St A → St A × A.W
  | [], s => (s, 0#_)
  | [c], s => exec e c s
  | c :: c' :: cs, s => execs e (c' :: cs) (exec e c s).1

def progAccs (x : Acc) (e : Env A) : List (Code A) → St A → A.W → Prop
  | [], _, _ => False
  | c :: cs, s, a => c.accs x e s a ∨ progAccs x e cs (exec e c s).1 a

/-- the same registers, and the same memory on `S` -/
def Same (S : A.W → Prop) (s s' : St A) : Prop := s.gpr = s'.gpr ∧ s.fpr = s'.fpr ∧ ∀ a, S a → s.mem a = s'.mem a

theorem Same.refl (S : A.W → Prop) (s : St A) : Same S s s := ⟨rfl, rfl, fun _ _ => rfl⟩
theorem Same.symm {S : A.W → Prop} {s s' : St A} (h : Same S s s') : Same S s' s := ⟨h.1.symm, h.2.1.symm, fun a ha => (h.2.2 a ha).symm⟩
theorem Same.mono {S S' : A.W → Prop} {s s' : St A} (h : Same S s s') (hs : ∀ a, S' a → S a) : Same S' s s' := ⟨h.1, h.2.1, fun a ha => h.2.2 a (hs a ha)⟩

/-- sizes of accesses are sane -/
def Arch.Sane (A : Arch) : Prop := A.k ≤ 2 ^ (8 * A.k) ∧ ∀ f, A.fb f ≤ 2 ^ (8 * A.k)

/-- an instruction changes only bytes it writes -/
theorem step_out (e : Env A) (s : St A) (i : Instr A) (a : A.W) (h : ¬ i.wr s a) : (step e s i).mem a = s.mem a := by
  cases i <;> try rfl
  all_goals exact store_out h

/-- the effect of an instruction depends only on bytes it reads -/
theorem step_same (hk : A.Sane) {S : A.W → Prop} {e : Env A} {s s' : St A} (i : Instr A) (h : Same S s s') (hr : ∀ a, i.rd s a → S a) :
    Same (fun a => S a ∨ i.wr s a) (step e s i) (step e s' i) := by
  obtain ⟨g, q, m⟩ := s
  obtain ⟨g', q', m'⟩ := s'
  obtain ⟨h1, h2, h3⟩ := h
  simp only at h1 h2 h3
  subst h1 h2
  have st : ∀ (b : A.W) (n : Nat) (v : BitVec (8 * n)) (a : A.W), (S a ∨ InR a b n) → store m b n v a = store m' b n v a := by
    intro b n v a ha
    by_cases hb : InR a b n
    · have hb' : (a - b).toNat < n := hb
      unfold store; rw [if_pos hb', if_pos hb']
    · rw [store_out hb, store_out hb]; exact h3 a (ha.resolve_right hb)
  have mem : ∀ a, S a ∨ False → m a = m' a := fun a ha => h3 a (ha.resolve_right id)
  cases i with
  | ld d b o =>
    have e1 : load m (g b + off A o) A.k = load m' (g b + off A o) A.k := load_congr hk.1 fun x hx => h3 x (hr x hx)
    refine ⟨?_, rfl, mem⟩
    simp only [step, setg, e1]
  | fld f b o =>
    have e1 : load m (g b + off A o) (A.fb f) = load m' (g b + off A o) (A.fb f) := load_congr (hk.2 f) fun x hx => h3 x (hr x hx)
    refine ⟨rfl, ?_, mem⟩
    simp only [step, setf, e1]
  | st r b o => exact ⟨rfl, rfl, st _ _ _⟩
  | sti v b o => exact ⟨rfl, rfl, st _ _ _⟩
  | fst f b o => exact ⟨rfl, rfl, st _ _ _⟩
  | _ => exact ⟨rfl, rfl, mem⟩

theorem acc_same {S : A.W → Prop} {s s' : St A} (h : Same S s s') (i : Instr A) (x : Acc) (a : A.W) : i.acc x s a ↔ i.acc x s' a := by
  obtain ⟨h1, -, -⟩ := h
  cases x <;> cases i <;> simp only [Instr.acc, Instr.rd, Instr.wr, h1]

/-- what straight-line code does depends only on bytes it reads -/
theorem steps_same (hk : A.Sane) {e : Env A} (is : List (Instr A)) {S : A.W → Prop} {s s' : St A} (h : Same S s s') (hr : ∀ a, accs .rd e is s a → S a) :
    Same (fun a => S a ∨ accs .wr e is s a) (steps e is s) (steps e is s') ∧ ∀ x a, accs x e is s a ↔ accs x e is s' a := by
  induction is generalizing S s s' with
  | nil => exact ⟨h.mono fun a ha => ha.resolve_right id, fun x a => Iff.rfl⟩
  | cons i is ih =>
    have h1 := step_same hk (e := e) i h (fun a ha => hr a (.inl ha))
    obtain ⟨h2, h3⟩ := ih h1 (fun a ha => .inl (hr a (.inr ha)))
    refine ⟨h2.mono ?_, fun x a => ?_⟩
    · rintro a (ha | ha | ha)
      · exact .inl (.inl ha)
      · exact .inl (.inr ha)
      · exact .inr ha
    · simp only [accs, acc_same h i x a, h3 x a]

theorem steps_out (e : Env A) (is : List (Instr A)) (s : St A) (a : A.W) (h : ¬ accs .wr e is s a) : (steps e is s).mem a = s.mem a := by
  induction is generalizing s with
  | nil => rfl
  | cons i is ih =>
    rw [steps, ih _ (fun hh => h (.inr hh))]
    exact step_out e s i a (fun hh => h (.inl hh))

theorem exec_same (hk : A.Sane) {e : Env A} (c : Code A) {S : A.W → Prop} {s s' : St A} (h : Same S s s') (hr : ∀ a, c.accs .rd e s a → S a) :
    Same (fun a => S a ∨ c.accs .wr e s a) (exec e c s).1 (exec e c s').1 ∧ (exec e c s).2 = (exec e c s').2 ∧ ∀ x a, c.accs x e s a ↔ c.accs x e s' a := by
  induction c generalizing S s s' with
  | jmp is r =>
    obtain ⟨h1, h2⟩ := steps_same hk is h hr
    exact ⟨h1, congrFun h1.1 r, h2⟩
  | brz is r z nz iz inz =>
    obtain ⟨h1, h2⟩ := steps_same hk is h (fun a ha => hr a (.inl ha))
    have e1 : (steps e is s).gpr r = (steps e is s').gpr r := congrFun h1.1 r
    simp only [exec, Code.accs] at hr ⊢
    rw [← e1]
    by_cases hz : (steps e is s).gpr r = 0#_
    · simp only [hz, if_true] at hr ⊢
      obtain ⟨k1, k2, k3⟩ := iz h1 (fun a ha => .inl (hr a (.inr ha)))
      refine ⟨k1.mono ?_, k2, fun x a => by rw [h2 x a, k3 x a]⟩
      rintro a (ha | ha | ha)
      · exact .inl (.inl ha)
      · exact .inl (.inr ha)
      · exact .inr ha
    · simp only [hz, if_false] at hr ⊢
      obtain ⟨k1, k2, k3⟩ := inz h1 (fun a ha => .inl (hr a (.inr ha)))
      refine ⟨k1.mono ?_, k2, fun x a => by rw [h2 x a, k3 x a]⟩
      rintro a (ha | ha | ha)
      · exact .inl (.inl ha)
      · exact .inl (.inr ha)
      · exact .inr ha

theorem exec_out (e : Env A) (c : Code A) (s : St A) (a : A.W) (h : ¬ c.accs .wr e s a) : (exec e c s).1.mem a = s.mem a := by
  induction c generalizing s with
  | jmp is r => exact steps_out e is s a h
  | brz is r z nz iz inz =>
    simp only [exec, Code.accs] at h ⊢
    have h0 := steps_out e is s a (fun hh => h (.inl hh))
    by_cases hz : (steps e is s).gpr r = 0#_
    · simp only [hz, if_true] at h ⊢
      rw [iz _ (fun hh => h (.inr hh)), h0]
    · simp only [hz, if_false] at h ⊢
      rw [inz _ (fun hh => h (.inr hh)), h0]

theorem execs_same (hk : A.Sane) {e : Env A} (cs : List (Code A)) {S : A.W → Prop} {s s' : St A} (h : Same S s s') (hr : ∀ a, progAccs .rd e cs s a → S a) :
    Same (fun a => S a ∨ progAccs .wr e cs s a) (execs e cs s).1 (execs e cs s').1 ∧ (execs e cs s).2 = (execs e cs s').2 ∧
      ∀ x a, progAccs x e cs s a ↔ progAccs x e cs s' a := by
  induction cs generalizing S s s' with
  | nil => exact ⟨h.mono fun a ha => ha.resolve_right id, rfl, fun x a => Iff.rfl⟩
  | cons c cs ih =>
    obtain ⟨h1, h2, h3⟩ := exec_same hk c h (fun a ha => hr a (.inl ha))
    obtain ⟨k1, k2, k3⟩ := ih h1 (fun a ha => .inl (hr a (.inr ha)))
    have kk : ∀ x a, progAccs x e (c :: cs) s a ↔ progAccs x e (c :: cs) s' a := fun x a => by simp only [progAccs, h3 x a, k3 x a]
    cases cs with
    | nil => exact ⟨h1.mono (fun a ha => ha.imp id fun hh => hh.resolve_right id), h2, kk⟩
    | cons c' cs =>
      refine ⟨k1.mono ?_, k2, kk⟩
      rintro a (ha | ha | ha)
      · exact .inl (.inl ha)
      · exact .inl (.inr ha)
      · exact .inr ha

theorem execs_out (e : Env A) (cs : List (Code A)) (s : St A) (a : A.W) (h : ¬ progAccs .wr e cs s a) : (execs e cs s).1.mem a = s.mem a := by
  induction cs generalizing s with
  | nil => rfl
  | cons c cs ih =>
    have h0 := exec_out e c s a (fun hh => h (.inl hh))
    cases cs with
    | nil => exact h0
    | cons c' cs => rw [execs, ih _ (fun hh => h (.inr hh)), h0]

theorem execs_single (e : Env A) (c : Code A) (s : St A) : execs e [c] s = exec e c s := rfl

/-! ## Footprints of a port -/

/-- the stub executed between the first switch to a new context and its function, if any -/
def Port.stub (P : Port A) : List (Code A) := match P.tramp with
  | none => []
  | some (_, c) => [c]

theorem Port.enter_execs (P : Port A) (e : Env A) (τ : St A) : P.enter e τ = execs e (P.jump :: P.stub) τ := by
  unfold Port.enter Port.stub
  cases P.tramp with
  | none => rfl
  | some c => rfl

/-- what a port reads outside of the stacks: for `ontop_fcontext` (function descriptors), for `make_fcontext` (i386: its arguments on
the stack; Windows: the chain of exception handlers) -/
structure Reads (A : Arch) where
  desc : Env A → St A → A.W → Prop := fun _ _ _ => False
  mdesc : Env A → St A → A.W → Prop := fun _ _ _ => False

/-- **C81**, for a port.  A switch (`jump`, `ontop`) with entry state `τ` to the context suspended by the call `σ` reads nothing but the own frame, the return address
and arguments (`fp` bytes), the same of the target, and its result object; it writes nothing but the own frame and the result object of the target (an on-top call also the
argument area of the target's call).  A first activation (`start`) accesses nothing but the own frame and arguments and the data of the new context, and writes nothing
but the own frame and its `mslot`.  `make_fcontext` accesses nothing but the new context's data below the top of its stack, its own scratch area, return
address and arguments. -/
structure Footprint {P : Port A} (X : Extra P) (D : Reads A) : Prop where
  jump_rd : ∀ {e σ τ m a}, P.Left e σ m → P.Intact σ m τ → P.argF τ = P.fctx σ → P.jump.accs .rd e τ a →
    InR a (P.fctx τ) X.fp ∨ InR a (P.fctx σ) X.fp ∨ P.slot σ a
  jump_wr : ∀ {e σ τ m a}, P.Left e σ m → P.Intact σ m τ → P.argF τ = P.fctx σ → P.jump.accs .wr e τ a →
    InR a (P.fctx τ) P.frame ∨ P.slot σ a
  ontop_rd : ∀ {e σ τ m a}, X.oot → P.Left e σ m → P.Intact σ m τ → P.argF τ = P.fctx σ → P.ontop.accs .rd e τ a →
    InR a (P.fctx τ) X.fp ∨ InR a (P.fctx σ) X.fp ∨ P.slot σ a ∨ D.desc e τ a
  ontop_wr : ∀ {e σ τ m a}, X.oot → P.Left e σ m → P.Intact σ m τ → P.argF τ = P.fctx σ → P.ontop.accs .wr e τ a →
    InR a (P.fctx τ) P.frame ∨ P.slot σ a ∨ P.oarea σ a
  start_rd : ∀ {e σ τ a}, X.mok e σ →
    (∀ a, InR a (P.resM (exec e P.make σ).1) (P.argTop σ - P.resM (exec e P.make σ).1).toNat → ¬ InR a (σ.gpr P.sp - off A P.mscratch) (P.mscratch + A.k)) →
    P.argF τ = P.resM (exec e P.make σ).1 → (∀ a, InR a (P.argF τ) P.mkeep → τ.mem a = (exec e P.make σ).1.mem a) →
    (∀ a, InR a (P.argF τ) P.mkeep → ¬ InR a (P.fctx τ) P.frame) → progAccs .rd e (P.jump :: P.stub) τ a →
    InR a (P.fctx τ) X.fp ∨ InR a (P.argF τ) P.mkeep
  start_wr : ∀ {e σ τ a}, X.mok e σ →
    (∀ a, InR a (P.resM (exec e P.make σ).1) (P.argTop σ - P.resM (exec e P.make σ).1).toNat → ¬ InR a (σ.gpr P.sp - off A P.mscratch) (P.mscratch + A.k)) →
    P.argF τ = P.resM (exec e P.make σ).1 → (∀ a, InR a (P.argF τ) P.mkeep → τ.mem a = (exec e P.make σ).1.mem a) →
    (∀ a, InR a (P.argF τ) P.mkeep → ¬ InR a (P.fctx τ) P.frame) → progAccs .wr e (P.jump :: P.stub) τ a →
    InR a (P.fctx τ) P.frame ∨ P.mslot (P.argF τ) a
  make_rd : ∀ {e σ a}, X.mok e σ →
    (∀ a, InR a (P.resM (exec e P.make σ).1) (P.argTop σ - P.resM (exec e P.make σ).1).toNat → ¬ InR a (σ.gpr P.sp - off A P.mscratch) (P.mscratch + A.k)) →
    P.make.accs .rd e σ a → InR a (P.resM (exec e P.make σ).1) (P.argTop σ - P.resM (exec e P.make σ).1).toNat ∨
      InR a (σ.gpr P.sp - off A P.mscratch) (P.mscratch + A.k) ∨ D.mdesc e σ a
  make_wr : ∀ {e σ a}, X.mok e σ →
    (∀ a, InR a (P.resM (exec e P.make σ).1) (P.argTop σ - P.resM (exec e P.make σ).1).toNat → ¬ InR a (σ.gpr P.sp - off A P.mscratch) (P.mscratch + A.k)) →
    P.make.accs .wr e σ a → InR a (P.resM (exec e P.make σ).1) (P.argTop σ - P.resM (exec e P.make σ).1).toNat ∨
      InR a (σ.gpr P.sp - off A P.mscratch) P.mscratch

/-- Arguments, return address and result object of a call are determined by the registers and the call's part of the stack; what `make_fcontext` is asked to do by the
registers and what it reads. -/
structure Local {P : Port A} (X : Extra P) (D : Reads A) : Prop where
  sane : A.Sane
  call : ∀ {e s s'}, Same (fun a => InR a (P.fctx s) X.fp) s s' → P.fctx s' = P.fctx s ∧ P.argF s' = P.argF s ∧ P.argD s' = P.argD s ∧ P.ra s' = P.ra s ∧
    P.spRet s' = P.spRet s ∧ (∀ a, P.slot s' a ↔ P.slot s a) ∧ (X.nn s → X.nn s') ∧ ∀ a, D.desc e s' a ↔ D.desc e s a
  res : ∀ {σ σ' τ τ'}, Same (fun a => InR a (P.fctx σ) X.fp) σ σ' → Same (P.slot σ) τ τ' →
    P.resF σ' τ' = P.resF σ τ ∧ P.resD σ' τ' = P.resD σ τ ∧ (P.also σ τ → P.also σ' τ')
  make : ∀ {e s s'}, X.mok e s → Same (P.make.accs .rd e s) s s' → X.mok e s' ∧ P.argTop s' = P.argTop s ∧ P.argMFn s' = P.argMFn s ∧
    ∀ a, D.mdesc e s' a ↔ D.mdesc e s a
  resM : ∀ {s s'}, s.gpr = s'.gpr → P.resM s = P.resM s'
  oarea : ∀ {s s' a}, s.gpr = s'.gpr → P.oarea s a → P.oarea s' a
  /-- the result object is used by nobody else while the call is suspended -/
  mslot : ∀ c a, P.mslot c a → InR a c P.mkeep

end Verif.Asm
