import Verif.Asm.ExitPorts

/-!
# x86_64 with `BOOST_CONTEXT_TLS_STACK_PROTECTOR`: what remains true (C30), and the return of a context function (C92)

`make_fcontext` with this option violates the general contract (`C30_x86_64_guard_violates`).  Given that the new context's data do not overlap the word above the return
address, which it overwrites, everything else the contract says holds. -/

namespace Verif.Asm.X86_64

/-- **C30**, new contexts with or without `BOOST_CONTEXT_TLS_STACK_PROTECTOR`: as `MakeSpec`, but `make_fcontext` may also write the word above its return address, which is why that
word must not belong to the new context. -/
theorem C30_x86_64_make_any (cfg : Cfg) (e : Env A) (σ : St A)
    (hd : ∀ a, InR a ((port cfg).resM (exec e (port cfg).make σ).1) ((port cfg).argTop σ - (port cfg).resM (exec e (port cfg).make σ).1).toNat → ¬ InR a (σ.gpr rsp) 0x10) :
    (port cfg).ReturnedTo ((port cfg).mspRet σ) σ (exec e (port cfg).make σ).1 (exec e (port cfg).make σ).2 ∧
    ((port cfg).mkeep ≤ ((port cfg).argTop σ - (port cfg).resM (exec e (port cfg).make σ).1).toNat ∧
      ((port cfg).argTop σ - (port cfg).resM (exec e (port cfg).make σ).1).toNat ≤ (port cfg).mkeep + 64) ∧
    (∀ a, (exec e (port cfg).make σ).1.mem a ≠ σ.mem a →
      InR a ((port cfg).resM (exec e (port cfg).make σ).1) ((port cfg).argTop σ - (port cfg).resM (exec e (port cfg).make σ).1).toNat ∨ InR a (σ.gpr rsp + off A 8) 8) ∧
    ∀ τ : St A, (port cfg).argF τ = (port cfg).resM (exec e (port cfg).make σ).1 →
      (∀ a, InR a ((port cfg).argF τ) (port cfg).mkeep → τ.mem a = (exec e (port cfg).make σ).1.mem a) →
      (∀ a, InR a ((port cfg).argF τ) (port cfg).mkeep → ¬ InR a ((port cfg).fctx τ) (port cfg).frame) →
      (∀ l c, (port cfg).tramp = some (l, c) → (exec e (port cfg).jump τ).2 = e l) ∧
      ((port cfg).enter e τ).2 = (port cfg).argMFn σ ∧
      (port cfg).inF ((port cfg).enter e τ).1 = (port cfg).fctx τ ∧ (port cfg).inD ((port cfg).enter e τ).1 = (port cfg).argD τ ∧
      (port cfg).ra ((port cfg).enter e τ).1 = e (port cfg).finish ∧
      (port cfg).aligned (((port cfg).enter e τ).1.gpr (port cfg).sp) ∧
      (((port cfg).enter e τ).1.gpr (port cfg).sp - (port cfg).argF τ).toNat ≤ ((port cfg).argTop σ - (port cfg).argF τ).toNat ∧
      (∀ a, ((port cfg).enter e τ).1.mem a ≠ τ.mem a → InR a ((port cfg).fctx τ) (port cfg).frame ∨ (port cfg).mslot ((port cfg).argF τ) a) ∧
      ∀ a, (port cfg).mslot ((port cfg).argF τ) a → InR a ((port cfg).argF τ) (port cfg).mkeep := by
  have hsz : ((port cfg).argTop σ - ctxOf σ).toNat = 0x48 + (σ.gpr rdi).toNat % 16 := align_below (A := A) (σ.gpr rdi) 0x48 4 (by decide)
  have hres : (port cfg).resM (exec e (port cfg).make σ).1 = ctxOf σ := by
    show (exec e (make cfg) σ).1.gpr rax = ctxOf σ
    rw [make_pre]
    have := steps_dest e ((makeIs cfg).drop 3) (.g rax) (by obtain ⟨_ | _, _ | _⟩ := cfg <;> decide) (setg σ rax (ctxOf σ))
    simp only [get_g] at this
    rw [this]; simp [setg]
  rw [hres] at hd ⊢
  rw [hsz] at hd ⊢
  obtain ⟨-, m2, m3, m4, m5, m6, m7, m8, -, -⟩ := make_facts cfg e σ (fun a ha hb => hd a (inR_mono ha (by omega)) (inR_mono hb (by split <;> omega)))
  have hm : exec e (port cfg).make σ = exec e (make cfg) σ := rfl
  rw [hm]
  refine ⟨m2, ⟨by show 0x48 ≤ _; omega, by show _ ≤ 0x48 + 64; omega⟩, ?_, ?_⟩
  · intro a ha
    rcases m3 a ha with h | ⟨-, h⟩
    · exact .inl (inR_mono h (by omega))
    · exact .inr (by assumption)
  · intro τ ha hmem hdj
    rw [ha] at hmem hdj ⊢
    rw [hsz]
    have ha' : τ.gpr rdi = ctxOf σ := ha
    have hmem : ∀ a, InR a (ctxOf σ) 0x48 → τ.mem a = (exec e (make cfg) σ).1.mem a := hmem
    have hdj : ∀ a, InR a (ctxOf σ) 0x48 → ¬ InR a (τ.gpr rsp - off A 0x40) 0x40 := hdj
    obtain ⟨h1, h2, h3⟩ := jump_restore cfg
    have hr := fin_rel (I_ok true e τ (fun _ => by rw [ha']; exact hdj)) _ h1
    obtain ⟨s, hs⟩ : ∃ s, s = steps (I e τ).e (jumpIs cfg) (I e τ).σ := ⟨_, rfl⟩
    have hx : exec e (port cfg).jump τ = (s, s.gpr r8) := by rw [hs]; rfl
    rw [← hs] at hr
    have b1 : (I e τ).β 1 = ctxOf σ := by simp [I, ha']
    have ld : ∀ o, o + A.k ≤ 0x48 → (I e τ).sv ⟨.ld 1 o, 0#_⟩ = load (exec e (make cfg) σ).1.mem (ctxOf σ + off A o) A.k := by
      intro o ho
      simp only [Itp.sv, Itp.atom, b1]
      simp only [I]
      rw [BitVec.add_zero]
      exact load_agree hmem ho (by decide)
    have hsp : s.gpr rsp = ctxOf σ + off A 0x48 := by rw [hr.reg h2.sp]; simp [Itp.sv, Itp.atom, I, ha']
    have hbp : s.gpr rbp = e Lab.finish := by rw [hr.reg (h2.g (rbp, 0x38) (by decide)), ld _ (by decide), m5]
    have hbx : s.gpr rbx = σ.gpr rdx := by rw [hr.reg (h2.g (rbx, 0x30) (by decide)), ld _ (by decide), m4]
    have hsp' : s.gpr rsp + -off A 8 = ctxOf σ + off A 0x40 := by rw [hsp]; exact off_pop _
    have hen : (port cfg).enter e τ = ({ setg s rsp (ctxOf σ + off A 0x40) with mem := store s.mem (ctxOf σ + off A 0x40) A.k (e Lab.finish) }, σ.gpr rdx) := by
      show exec e (tramp cfg) (exec e (port cfg).jump τ).1 = _
      rw [hx]
      show ({ setg s rsp (s.gpr rsp + -off A 8) with mem := store s.mem (s.gpr rsp + -off A 8 + off A 0) A.k (s.gpr rbp) }, s.gpr rbx) = _
      rw [hsp', hbp, hbx]
      simp [off]
    rw [hen]
    refine ⟨?_, rfl, ?_, ?_, ?_, ?_, ?_, ?_, ?_⟩
    · intro l cc h
      have hl : l = Lab.trampoline := (congrArg Prod.fst (Option.some.inj h)).symm
      rw [hx, hl]
      show s.gpr r8 = _
      rw [hr.reg h3, ld _ (by decide), m6]
    · show s.gpr rdi = τ.gpr rsp - off A 0x40
      rw [hr.reg h2.rdi]; simp only [Itp.sv, Itp.atom, I]; grind
    · show s.gpr rsi = τ.gpr rsi
      rw [hr.reg h2.rsi]; simp [Itp.sv, Itp.atom, I]
    · show load (store s.mem (ctxOf σ + off A 0x40) A.k (e Lab.finish)) (ctxOf σ + off A 0x40) A.k = e Lab.finish
      exact load_store_same _ _ _ _ (by decide)
    · show (ctxOf σ + off A 0x40 + off A 8).toNat % 16 = 0
      have : ctxOf σ + off A 0x40 + off A 8 = (σ.gpr rdi &&& mask A 4) + off A 0 := by
        simp only [ctxOf]
        generalize (σ.gpr rdi &&& mask A 4) = x
        simp only [off]
        grind
      rw [this]
      exact mask_add_mod _ 0 4 (by decide) (by decide)
    · show (ctxOf σ + off A 0x40 - ctxOf σ).toNat ≤ _
      have : ctxOf σ + off A 0x40 - ctxOf σ = off A 0x40 := by rw [BitVec.add_comm, BitVec.add_sub_cancel]
      rw [this]
      have : (off A 0x40).toNat = 0x40 := by decide
      omega
    · intro a h
      by_cases hh : InR a (ctxOf σ + off A 0x40) 8
      · exact .inr hh
      · left
        have h : store s.mem (ctxOf σ + off A 0x40) A.k (e Lab.finish) a ≠ τ.mem a := h
        rw [store_out (n := A.k) hh] at h
        exact wrote hr h2 a h
    · intro a h
      have h : InR a (ctxOf σ + off A 0x40) 8 := h
      exact inR_off h (show 0x40 + 8 ≤ 0x48 by decide) (show 0x48 ≤ 2 ^ (8 * A.k) by decide)

/-- what C92 demands of the call of `make_fcontext` with stack protector: the new context's data and the word above the return address do not overlap -/
def voidG (cfg : Cfg) : VoidConv (port cfg) :=
  { void cfg with
    mok := fun e σ => ∀ a, InR a ((port cfg).resM (exec e (port cfg).make σ).1) ((port cfg).argTop σ - (port cfg).resM (exec e (port cfg).make σ).1).toNat → ¬ InR a (σ.gpr rsp) 0x10 }

/-- **C92**, x86_64 with or without stack protector -/
theorem C92_x86_64_any (cfg : Cfg) : (port cfg).ExitSpec (voidG cfg) finish := by
  intro e σ τ ρ pc x nxt hm _ h1 h2 h3 hr hk
  obtain ⟨_, _, _, h⟩ := C30_x86_64_make_any cfg e σ hm
  obtain ⟨_, _, _, _, hra, hal, _⟩ := h τ h1 h2 h3
  have hS : (port cfg).StubOk (voidG cfg) finish := by
    refine .call rfl rfl fun e ε ρ nxt h => ?_
    have hs : ρ.gpr rsp + -off A 8 = ε.gpr rsp := by rw [show ρ.gpr rsp = ε.gpr rsp + off A 8 from h]; exact add_off_neg _ 8
    refine ⟨hs, rfl, fun a ha => ?_⟩
    have ha : store ρ.mem (ρ.gpr rsp + -off A 8 + off A 0) A.k nxt a ≠ ρ.mem a := ha
    rw [hs] at ha
    exact store_in (hi := 8) ha (by decide) (by decide)
  exact ⟨hr.pc.trans hra, hS e σ _ ρ x nxt hal hr.sp hk⟩

/-- The hypothesis on the call of `make_fcontext` is met by a caller at `rsp = 0x10000` and a stack whose top is the odd address `0xf123`. -/
example (e : Env A) (cfg : Cfg) : (voidG cfg).mok e (mk 0x10000#_ 0xf123#_ 0#_ 1#_) := by
  have hd0 : ∀ a, InR a (ctxOf (mk 0x10000#_ 0xf123#_ 0#_ 1#_)) 0x48 → ¬ InR (A := A) a 0x10000#_ 0x10 := fun a ha => inR_apart (by decide) (by decide) ha
  have hres := (make_facts cfg e (mk 0x10000#_ 0xf123#_ 0#_ 1#_) (fun a ha hb => hd0 a ha (inR_mono hb (by split <;> omega)))).1
  intro a ha
  rw [show (port cfg).resM (exec e (port cfg).make (mk 0x10000#_ 0xf123#_ 0#_ 1#_)).1 = _ from hres] at ha
  have h2 : ((port cfg).argTop (mk 0x10000#_ 0xf123#_ 0#_ 1#_) - ctxOf (mk 0x10000#_ 0xf123#_ 0#_ 1#_)).toNat = 0x4b := by
    show ((0xf123#_ : A.W) - ctxOf (mk 0x10000#_ 0xf123#_ 0#_ 1#_)).toNat = _; decide
  rw [h2] at ha
  exact inR_apart (n := 0x4b) (by decide) (by decide) ha

end Verif.Asm.X86_64
