import Verif.Asm.ManyWit
import Verif.Asm.I386Pe
import Verif.Asm.Arm64Pe
import Verif.Asm.ArmPe

/-! # Any number of contexts, any sequence of switches: i386 Windows, and ARM64 and ARM Windows without on-top calls (C40) -/

namespace Verif.Asm

namespace I386Pe

theorem jump_sp (cfg : Cfg) : ∃ h, (CE.fin (jumpIs cfg) h).gpr esp = ⟨.ld 0 0x30, off A 0x30⟩ := by
  obtain ⟨_ | _⟩ := cfg <;> exact ⟨by decide +kernel, by decide +kernel⟩

/-- The demand on a call of `make_fcontext` (see `MakeOk`): the chain of exception handlers of the caller ends (after at most `N` records), and neither the arguments nor
the records lie on the new stack. -/
def extra (cfg : Cfg) (N : Nat) : Extra (port cfg N) where
  fp := 0x3c
  tk := 0x38
  null _ := False
  nn _ := True
  mok e σ := ∃ l, l.length ≤ N ∧ MakeOk σ ((port cfg N).resM (exec e (port cfg N).make σ).1) l
  frame := by show 0x2c ≤ _; omega
  keep := by show 0x30 ≤ _; omega
  tk1 := by omega
  tk2 := by show 0x38 ≤ 0x40; omega
  oarea σ a h := by
    have h : InR a (σ.gpr esp + off A 4) 8 := h
    rw [← fr] at h
    exact inR_off h (by decide) (by decide)
  ok s T hf hs hn ht hts := fun a h1 h2 => (hf a h2).1 (ht a h1)
  told _ _ _ _ _ _ _ _ _ a h := h.elim
  fresh e σ τ _ hp ha hmem hdj := by
    refine ⟨fun a h => h.elim, fun a h => ?_⟩
    have hdj : ∀ a, InR a (arg τ 4) 0x40 → ¬ InR a (own τ) 0x2c := hdj
    show InR a (arg τ 4) 0x40
    obtain ⟨h1, h2⟩ := jump_sp cfg
    have hr := fin_rel (IE_ok e τ hdj) _ h1
    obtain ⟨s, hs⟩ : ∃ s, s = steps (I e τ).e (jumpIs cfg) (I e τ).σ := ⟨_, rfl⟩
    have hx : exec e (port cfg N).jump τ = (s, s.gpr ecx) := by rw [hs]; rfl
    rw [← hs] at hr
    obtain ⟨c, hc⟩ : ∃ c, c = arg τ 4 := ⟨_, rfl⟩
    have hsp : s.gpr esp = c + off A 0x30 := by
      rw [hr.reg h2, hc]
      show load τ.mem (τ.gpr esp - off A 0x2c + off A (0x2c + 4)) A.k + _ = _
      rw [fr]
    rw [← hc]
    have hen : ((port cfg N).enter e τ).1.mem = store (store (store s.mem (c + off A 0x30) A.k (s.gpr eax)) (c + off A 0x34) A.k (s.gpr edx))
        (c + off A 0x2c) A.k (s.gpr ebp) := by
      show (exec e (tramp cfg) (exec e (port cfg N).jump τ).1).1.mem = _
      rw [hx]
      show store (store (store s.mem (s.gpr esp + off A 0) A.k (s.gpr eax)) (s.gpr esp + off A 4) A.k (s.gpr edx)) (s.gpr esp + -off A 4 + off A 0) A.k (s.gpr ebp) = _
      rw [hsp]
      have q1 : c + off A 0x30 + off A 0 = c + off A 0x30 := BitVec.add_zero _
      have q2 : c + off A 0x30 + off A 4 = c + off A 0x34 := add_off_off _ _ _
      have q3 : c + off A 0x30 + -off A 4 + off A 0 = c + off A 0x2c := by
        rw [BitVec.add_assoc, BitVec.add_assoc]; congr 1
      rw [q1, q2, q3]
    rw [hen, hx] at h
    by_cases g1 : InR a (c + off A 0x2c) A.k
    · exact inR_off g1 (by decide) (by decide)
    by_cases g2 : InR a (c + off A 0x34) A.k
    · exact inR_off g2 (by decide) (by decide)
    by_cases g3 : InR a (c + off A 0x30) A.k
    · exact inR_off g3 (by decide) (by decide)
    rw [store_out g1, store_out g2, store_out g3] at h
    exact absurd rfl h

theorem makeS (cfg : Cfg) (N : Nat) : (extra cfg N).MakeS := fun e σ ⟨l, h1, h2⟩ _ => C67_i386_pe_make cfg N e σ l h1 h2

end I386Pe

namespace Arm64Pe

theorem jump_sp : ((K.C 0xd0 (0xc0, 0xd0)).fin jumpIs ej1).gpr sp = ⟨.reg (x 0), off A 0xd0⟩ := by decide +kernel

/-- without on-top calls (see `C63_arm64_pe_ontop_violated`) -/
def extra : Extra port where
  fp := 0xd0
  tk := 0
  null _ := False
  nn _ := True
  oot := False
  frame := by show 0xd0 ≤ _; omega
  keep := by show 0xd0 ≤ _; omega
  tk1 := by omega
  tk2 := by omega
  oarea σ a h := h.elim
  ok s T _ _ _ _ _ := trivial
  told _ _ _ _ _ _ _ _ _ a h := h.elim
  fresh e σ τ _ _ _ _ hd := by
    refine ⟨fun a h => h.elim, fun a h => ?_⟩
    have hd : ∀ a, InR a (τ.gpr (x 0)) 0xd0 → ¬ InR a (τ.gpr sp - off A 0xd0) 0xd0 := hd
    show InR a (τ.gpr (x 0)) 0xd0
    have hr := fin_rel (RCfg.I_ok wf 0xd0 (0xc0, 0xd0) (by decide) (by decide) e τ hd) jumpIs ej1
    obtain ⟨s, hs⟩ : ∃ s, s = steps (K.I e τ).e jumpIs (K.I e τ).σ := ⟨_, rfl⟩
    have hx : exec e port.jump τ = (s, s.gpr (x 4)) := by rw [hs]; rfl
    rw [← hs] at hr
    have hsp : s.gpr sp = τ.gpr (x 0) + off A 0xd0 := by rw [hr.reg jump_sp]; rfl
    have hen : (port.enter e τ).1.mem = store (store s.mem (τ.gpr (x 0) + off A 0xc0) A.k (s.gpr (x 29))) (τ.gpr (x 0) + off A 0xc8) A.k (s.gpr (x 30)) := by
      show (exec e tramp (exec e port.jump τ).1).1.mem = _
      rw [hx]
      show store (store s.mem (s.gpr sp + -off A 0x10 + off A 0) A.k (s.gpr (x 29))) (s.gpr sp + -off A 0x10 + off A 8) A.k (s.gpr (x 30)) = _
      rw [hsp]
      have q1 : τ.gpr (x 0) + off A 0xd0 + -off A 0x10 + off A 0 = τ.gpr (x 0) + off A 0xc0 := by rw [BitVec.add_assoc, BitVec.add_assoc]; congr 1
      have q2 : τ.gpr (x 0) + off A 0xd0 + -off A 0x10 + off A 8 = τ.gpr (x 0) + off A 0xc8 := by rw [BitVec.add_assoc, BitVec.add_assoc]; congr 1
      rw [q1, q2]
    rw [hen, hx] at h
    by_cases g1 : InR a (τ.gpr (x 0) + off A 0xc8) A.k
    · exact inR_off g1 (by decide) (by decide)
    by_cases g2 : InR a (τ.gpr (x 0) + off A 0xc0) A.k
    · exact inR_off g2 (by decide) (by decide)
    rw [store_out g1, store_out g2] at h
    exact absurd rfl h

end Arm64Pe

/-- no calls of `ontop_fcontext` -/
def Extra.noOntop {A : Arch} {P : Port A} (X : Extra P) : Extra P := { X with oot := False }

/-- without on-top calls (see `C64_arm_pe_ontop_violated`) and without d8-d15 (see `C64_arm_pe_loses_fprs`) -/
def ArmPe.extra : Extra ArmPe.port := (Extra.slot ArmPe.M rfl (by decide) (by decide)).noOntop

/-- i386 Windows, all histories in which `make_fcontext` is called with exception handler chains of at most `N` records; `N` is arbitrary -/
theorem C40_i386_pe (cfg : I386Pe.Cfg) (N : Nat) : Many.Spec (I386Pe.extra cfg N) fun _ τ => (I386Pe.port cfg N).argFn τ :=
  Many.C40_of_calls _ (I386Pe.C67_i386_pe_jump cfg N) (fun _ => I386Pe.C67_i386_pe_ontop cfg N) (I386Pe.makeS cfg N)
/-- ARM64 Windows, histories without on-top calls -/
theorem C40_arm64_pe : Many.Spec Arm64Pe.extra fun _ τ => Arm64Pe.port.argFn τ := Many.C40_of_calls _ Arm64Pe.C63_arm64_pe_jump (fun h => h.elim) (fun e σ _ => Arm64Pe.C63_arm64_pe_make e σ)
/-- ARM Windows, histories without on-top calls -/
theorem C40_arm_pe : Many.Spec ArmPe.extra fun _ τ => ArmPe.port.argFn τ := Many.C40_of_calls _ ArmPe.C64_arm_pe_jump (fun h => h.elim) (fun e σ _ => ArmPe.C64_arm_pe_make e σ)

namespace Many

/-- a call with a registration record at `sp + 0x30`, the last of the chain -/
def winCall (m : Mem I386Pe.A) (sp to x : I386Pe.A.W) : St I386Pe.A :=
  { I386Pe.mk (store m (sp + off I386Pe.A 0x30) 4 (-1#_)) sp to x 0 with
    fpr := fun q => if q = I386Pe.tibSeh then (sp + off I386Pe.A 0x30).setWidth _ else 0#_ }

theorem winCall_to (m : Mem I386Pe.A) (sp to x : I386Pe.A.W) : I386Pe.arg (winCall m sp to x) 4 = to := I386Pe.mk_to _ _ _ x 0

theorem winCall_rec (sp to x : I386Pe.A.W) (m : Mem I386Pe.A) : load (winCall m sp to x).mem (sp + off I386Pe.A 0x30) 4 = -1#_ := by
  show load (store (store m (sp + off I386Pe.A 0x30) 4 (-1#_)) (sp + off I386Pe.A 4) I386Pe.A.k to) (sp + off I386Pe.A 0x30) 4 = _
  rw [load_store_out (by decide) (fun a ha => inR_disj ha (by decide) (by decide) (by decide))]
  exact load_store_same _ _ _ _ (by decide)

theorem win_ctx : (((0x3f000#_ : I386Pe.A.W) + -off I386Pe.A 8) &&& mask I386Pe.A 4) - off I386Pe.A 0x40 = 0x3efb0#_ := by decide
theorem win_size : ((0x3f000#_ : I386Pe.A.W) - 0x3efb0#_).toNat = 0x50 := by decide

def c_i386_pe (cfg : I386Pe.Cfg) (N : Nat) (hN : 1 ≤ N) : Calls (I386Pe.extra cfg N) where
  call m sp _ to x := winCall m sp to x
  fr := 0x2c
  k := by decide
  sz := by show 0x3c ≤ 0x400 ∧ 0x2c ≤ 0x400 ∧ 0 + 4 ≤ 0x400 ∧ 0x40 ≤ 0x400; decide
  null _ h := h.elim
  mem m sp h to x a ha := by
    show (I386Pe.mk _ sp to x 0).mem a = _
    rw [I386Pe.mk_mem _ _ _ _ _ _ fun h => ha (inR_mono h (by decide)), store_out]
    exact fun hh => ha (inR_off hh (by decide) (by decide))
  sp _ _ _ _ _ := rfl
  fctx _ _ _ _ _ := rfl
  argF _ _ _ _ _ := winCall_to _ _ _ _
  res e m sp t x := by
    obtain ⟨σ, hσ⟩ : ∃ σ, σ = winCall m sp t x := ⟨_, rfl⟩
    rw [← hσ]
    have hres : (I386Pe.port cfg N).resM (exec e (I386Pe.port cfg N).make σ).1 = I386Pe.ctxOf σ := I386Pe.make_res cfg N e σ
    rw [hres]
    show (I386Pe.arg σ 4 - I386Pe.ctxOf σ).toNat ≤ _
    rw [I386Pe.ctx_size]
    omega
  argTop _ _ _ _ := winCall_to _ _ _ _
  slot m sp h to x a ha := ha.elim
  nn _ _ _ _ _ _ := trivial
  mok e x := by
    obtain ⟨σ, hσ⟩ : ∃ σ, σ = winCall (fun _ => 0#_) 0x18000#_ 0x3f000#_ x := ⟨_, rfl⟩
    show (I386Pe.extra cfg N).mok e (winCall (fun _ => 0#_) 0x18000#_ 0x3f000#_ x)
    rw [← hσ]
    have hres : (I386Pe.port cfg N).resM (exec e (I386Pe.port cfg N).make σ).1 = I386Pe.ctxOf σ := I386Pe.make_res cfg N e σ
    have h1 : I386Pe.arg σ 4 = 0x3f000#_ := by rw [hσ]; exact winCall_to _ _ _ _
    have h2 : σ.gpr I386Pe.esp = 0x18000#_ := by rw [hσ]; rfl
    have h3 : I386Pe.seh σ = 0x18030#_ := by rw [hσ]; rfl
    have h4 : load σ.mem 0x18030#_ 4 = -1#_ := by rw [hσ]; exact winCall_rec 0x18000#_ _ _ _
    have hc : I386Pe.ctxOf σ = 0x3efb0#_ := by rw [I386Pe.ctxOf, h1]; exact win_ctx
    refine ⟨[0x18030#_], hN, ?_⟩
    rw [hres, hc]
    refine ⟨?_, ?_, ?_⟩
    · rw [h3]; exact .last _ h4
    · rw [h1, h2, win_size]
      exact fun a ha hb => inR_apart (by decide) (by decide) hb ha
    · intro r hr
      rw [List.mem_singleton.1 hr, h1, win_size]
      exact fun a ha hb => inR_apart (by decide) (by decide) hb ha
  diff := ⟨I386Pe.ebx, by simp [I386Pe.port], fun _ _ _ _ _ => rfl⟩

def c_arm64_pe : Calls Arm64Pe.extra :=
  .regs (Arm64Pe.x 0) (Arm64Pe.x 0) (Arm64Pe.x 0) 0xd0 4 0xd0 (by decide) (by show 0xd0 ≤ 0x400 ∧ 0xd0 ≤ 0x400 ∧ 0 + 8 ≤ 0x400 ∧ 0xd0 ≤ 0x400; decide) (fun _ h => h.elim)
    (by decide) rfl rfl rfl (fun _ _ h => h.elim) (fun _ _ => trivial) (by decide) (fun e σ => (Arm64Pe.M.make e σ _ rfl).2.1) ⟨Arm64Pe.x 19, by decide, by decide⟩

def c_arm_pe : Calls ArmPe.extra :=
  .regs (ArmPe.a 2) (ArmPe.a 1) (ArmPe.a 1) 0x38 4 0x48 (by decide) (by show 0x38 ≤ 0x400 ∧ 0x38 ≤ 0x400 ∧ 0 + 4 ≤ 0x400 ∧ 0x48 ≤ 0x400; decide)
    (fun a h => slot_null (by decide) a h.2) (by decide) rfl rfl rfl (fun _ _ h => ⟨by decide, inR_mono h (by decide)⟩)
    (fun _ h _ => h.resolve_left (by decide))
    (by decide) (fun e σ => (ArmPe.M.make e σ _ rfl).2.1) ⟨ArmPe.v 1, by decide, by decide⟩

example (cfg : I386Pe.Cfg) (N : Nat) (hN : 1 ≤ N) := inhabited_of (I386Pe.makeS cfg N) (c_i386_pe cfg N hN)
example := inhabited Arm64Pe.C63_arm64_pe_make c_arm64_pe
example := inhabited ArmPe.C64_arm_pe_make c_arm_pe

end Many
end Verif.Asm
