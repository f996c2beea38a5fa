import Verif.Asm.Ppc32MachoCode
import Verif.Asm.SlotTramp

/-! # PowerPC 32 Mach-O (Darwin): the switching routines meet their specification (C78), and where they do not -/

namespace Verif.Asm.Ppc32Macho

/-- registers and frame layout -/
def K : SlotCfg A where
  sp := r 1
  h := r 3
  to := r 4
  d := r 5
  fn := r 6
  ra := lr
  fr := 244
  N := 244
  oH := 228
  oPC := 240
  LG := [(r 13, 152), (r 14, 156), (r 15, 160), (r 16, 164), (r 17, 168), (r 18, 172), (r 19, 176), (r 20, 180), (r 21, 184), (r 22, 188), (r 23, 192), (r 24, 196), (r 25, 200), (r 26, 204), (r 27, 208), (r 28, 212), (r 29, 216), (r 30, 220), (r 31, 224), (cr, 232), (lr, 236)]
  LF := [(f 14, 0), (f 15, 8), (f 16, 16), (f 17, 24), (f 18, 32), (f 19, 40), (f 20, 48), (f 21, 56), (f 22, 64), (f 23, 72), (f 24, 80), (f 25, 88), (f 26, 96), (f 27, 104), (f 28, 112), (f 29, 120), (f 30, 128), (f 31, 136), (fpscr, 144)]
  nz := false
  via q := if q = fpscr then f 0 else q
  opc := ⟨.lab Lab.tail, 0#_⟩

/-- Darwin ABI: the address of the result object in r3, arguments in r4, r5, r6, r7 (r3, r4, r5 if the function returns a word or nothing); a structure of two words
is passed in two registers; return address in the link register; callee-saved r1 (stack pointer), r13-r31, f14-f31, fields of the condition register; additionally FPSCR is
saved.  The on-top entry point is `ontop_fcontext_tail(hidden, ignored, data, fn, from)`, which takes `transfer_t{from, data}` in r7 and r5.
`al`: the stack pointer of a new context is a multiple of `2 ^ al`; the ABI demands `al = 4`, see `C78_ppc32_macho_misaligned`.
`ok`: see `SlotCfg.Ok` (frames and result objects do not overlap). -/
def prt (al : Nat) : Port A where
  jump := jump
  ontop := ontop
  make := make
  tramp := some (Lab.trampoline, tramp)
  finish := Lab.finish
  sp := r 1
  saved := [r 13, r 14, r 15, r 16, r 17, r 18, r 19, r 20, r 21, r 22, r 23, r 24, r 25, r 26, r 27, r 28, r 29, r 30, r 31, cr]
  fsaved := [f 14, f 15, f 16, f 17, f 18, f 19, f 20, f 21, f 22, f 23, f 24, f 25, f 26, f 27, f 28, f 29, f 30, f 31, fpscr]
  ra s := s.gpr lr
  spRet s := s.gpr (r 1)
  argF s := s.gpr (r 4)
  argD s := s.gpr (r 5)
  argFn s := s.gpr (r 6)
  slot s x := InR x (s.gpr (r 3)) 8
  resF σ τ := load τ.mem (σ.gpr (r 3)) A.k
  resD σ τ := load τ.mem (σ.gpr (r 3) + off A 4) A.k
  inF s := s.gpr (r 3)
  inD s := s.gpr (r 4)
  oinF s := s.gpr (r 7)
  oinD s := s.gpr (r 5)
  fctx s := s.gpr (r 1) - off A 244
  frame := 244
  keep := 244
  tslot s x := InR x (load s.mem (s.gpr (r 4) + off A 228) A.k) 8
  oarea _ _ := False
  ok := K.Ok
  argTop s := s.gpr (r 3)
  argMFn s := s.gpr (r 5)
  resM s := s.gpr (r 3)
  mspRet s := s.gpr (r 1)
  mscratch := 0
  mkeep := 336
  mslot c x := InR x (c + off A 252) 8
  aligned w := w.toNat % 2 ^ al = 0

/-- the port as the ABI demands it -/
abbrev port : Port A := prt 4

/-! ## Proofs -/

theorem wf : K.Wf where
  w := by decide
  N := by decide
  tw := by decide
  oH := by decide
  oPC := by decide
  LG := by decide
  LF := by decide
  via _ := rfl

theorem jump_save : ∃ h, SlotCfg.SaveOk K ((K.C false).fin jumpIs h) :=
  ⟨by decide +kernel, by decide +kernel, by decide +kernel, by decide +kernel, by decide +kernel, by decide +kernel⟩
theorem ontop_save : ∃ h, SlotCfg.SaveOk K ((K.C false).fin ontopIs h) :=
  ⟨by decide +kernel, by decide +kernel, by decide +kernel, by decide +kernel, by decide +kernel, by decide +kernel⟩

theorem j1 : ((K.C true).run jumpIs SSt.init).isSome = true := by decide +kernel
theorem o1 : ((K.C true).run ontopIs SSt.init).isSome = true := by decide +kernel
theorem j2 : SlotCfg.JumpOk K ctr ((K.C true).fin jumpIs j1) :=
  ⟨⟨by decide +kernel, by decide +kernel, by decide +kernel, by decide +kernel⟩, by decide +kernel, by decide +kernel, by decide +kernel, by decide +kernel⟩
theorem o2 : SlotCfg.OntopOk K npc ((K.C true).fin ontopIs o1) :=
  ⟨⟨by decide +kernel, by decide +kernel, by decide +kernel, by decide +kernel⟩, by decide +kernel, by decide +kernel⟩

def S (al : Nat) : SlotPort (prt al) where
  K := K
  wf := wf
  ji := jumpIs
  oi := ontopIs
  jr := ctr
  or := npc
  jrun _ _ _ _ := rfl
  orun _ _ := rfl
  left := SlotCfg.left_of wf rfl rfl jumpIs.length ontopIs.length (by simp) (by simp) rfl (by simpa using jump_save) (by simpa using ontop_save)
  j1 := j1
  o1 := o1
  j2 := j2
  o2 := o2
  conv := ⟨rfl, rfl, rfl, rfl, rfl, rfl, rfl, rfl, rfl, rfl, rfl, rfl⟩
  res := ⟨rfl, rfl⟩
  sav := by simp only [prt]; decide
  also _ _ _ _ _ _ := trivial
  oin e τ s hr := by
    have hr : Rel (K.C true) (K.I e τ) ((K.C true).fin ontopIs o1) s := hr
    have h1 : ((K.C true).fin ontopIs o1).gpr (r 7) = ⟨.reg K.sp, -off A K.fr⟩ := by decide +kernel
    have h2 : ((K.C true).fin ontopIs o1).gpr (r 5) = ⟨.reg (r 5), 0#_⟩ := by decide +kernel
    exact ⟨(hr.reg h1).trans (SlotCfg.sv_own e τ), (hr.reg h2).trans (SlotCfg.sv_reg _ _)⟩

/-- the first activation: switch, then trampoline -/
def ei : List (Instr A) := jumpIs ++ trampIs

abbrev CE : SCfg A := K.CE 336 252 (252, 260)

theorem e1 : (CE.run ei SSt.init).isSome = true := by decide +kernel
theorem ej1 : (CE.run jumpIs SSt.init).isSome = true := by decide +kernel
theorem ejpc : (CE.fin jumpIs ej1).gpr ctr = ⟨.ld 1 240, 0#_⟩ := by decide +kernel

/-- the memory `make_fcontext` leaves -/
theorem make_mem (e : Env A) (σ : St A) (c : A.W) (hc : c = (σ.gpr (r 3) &&& mask A 4) - off A 336) : ∃ v, (exec e make σ).1.mem =
    store (store (store (store (store (store σ.mem (c + off A 224) A.k (σ.gpr (r 5))) (c + off A 244) A.k (off A 0)) (c + off A 144) (A.fb (f 0)) v) (c + off A 228) A.k (c + off A 252))
      (c + off A 240) A.k (e Lab.trampoline)) (c + off A 236) A.k (e Lab.finish) := by
  have hfin : e Lab.l1 + (e Lab.finish - e Lab.l1) = e Lab.finish := by generalize e Lab.l1 = x; generalize e Lab.finish = y; grind
  have htr : e Lab.l1 + (e Lab.trampoline - e Lab.l1) = e Lab.trampoline := by generalize e Lab.l1 = x; generalize e Lab.trampoline = y; grind
  rw [← hfin, ← htr, hc, BitVec.sub_eq_add_neg]; exact ⟨(σ.fpr fpscr).setWidth _, rfl⟩

theorem make_words (e : Env A) (σ : St A) (c : A.W) (hc : c = (σ.gpr (r 3) &&& mask A 4) - off A 336) :
    load (exec e make σ).1.mem (c + off A 224) A.k = σ.gpr (r 5) ∧ load (exec e make σ).1.mem (c + off A 240) A.k = e Lab.trampoline ∧
    load (exec e make σ).1.mem (c + off A 236) A.k = e Lab.finish ∧ load (exec e make σ).1.mem (c + off A 228) A.k = c + off A 252 := by
  obtain ⟨v, hm⟩ := make_mem e σ c hc
  rw [hm]
  refine ⟨?_, ?_, ?_, ?_⟩
  · rw [load_store_off (by decide) (by decide) (by decide), load_store_off (by decide) (by decide) (by decide), load_store_off (by decide) (by decide) (by decide),
      load_store_off (by decide) (by decide) (by decide), load_store_off (by decide) (by decide) (by decide), load_store_same _ _ _ _ (by decide)]
  · rw [load_store_off (by decide) (by decide) (by decide), load_store_same _ _ _ _ (by decide)]
  · rw [load_store_same _ _ _ _ (by decide)]
  · rw [load_store_off (by decide) (by decide) (by decide), load_store_off (by decide) (by decide) (by decide), load_store_same _ _ _ _ (by decide)]

theorem make_res (e : Env A) (σ : St A) : (exec e make σ).1.gpr (r 3) = (σ.gpr (r 3) &&& mask A 4) - off A 336 := by
  rw [BitVec.sub_eq_add_neg]; rfl

def M : SlotMakeT (S 2).toSlotJump where
  top := r 3
  j := 4
  msz := 336
  hid := 252
  mw := (252, 260)
  oRA := 236
  oFn := 224
  lab := Lab.trampoline
  tc := tramp
  spo := 244
  al := 2
  ei := ei
  er := ctr
  conv := ⟨rfl, rfl, rfl, rfl, rfl, rfl⟩
  sz := by decide
  make := by
    intro e σ c hc
    have h : ∀ q ∈ (prt 2).saved, ∀ i ∈ makeIs, i.dest ≠ some (.g q) := by simp only [prt]; decide
    have hf : ∀ q ∈ (prt 2).fsaved, ∀ i ∈ makeIs, i.dest ≠ some (.f q) := by simp only [prt]; decide
    obtain ⟨w1, w2, w3, w4⟩ := make_words e σ c hc
    obtain ⟨v, hm⟩ := make_mem e σ c hc
    refine ⟨rfl, (make_res e σ).trans hc.symm, rfl, fun q hq => ?_, fun q hq => ?_, fun y ha => ?_, w1, w2, w3, w4⟩
    · exact steps_dest e makeIs (.g q) (h q hq) σ
    · exact steps_dest e makeIs (.f q) (hf q hq) σ
    · rw [show (prt 2).make = make from rfl, hm] at ha
      by_cases h1 : InR y (c + off A 236) A.k
      · exact inR_off h1 (by decide) (by decide)
      by_cases h2 : InR y (c + off A 240) A.k
      · exact inR_off h2 (by decide) (by decide)
      by_cases h3 : InR y (c + off A 228) A.k
      · exact inR_off h3 (by decide) (by decide)
      by_cases h4 : InR y (c + off A 144) (A.fb (f 0))
      · exact inR_off h4 (by decide) (by decide)
      by_cases h5 : InR y (c + off A 244) A.k
      · exact inR_off h5 (by decide) (by decide)
      by_cases h6 : InR y (c + off A 224) A.k
      · exact inR_off h6 (by decide) (by decide)
      rw [store_out h1, store_out h2, store_out h3, store_out h4, store_out h5, store_out h6] at ha
      exact absurd rfl ha
  erun e τ _ _ := by
    show exec e tramp (steps e jumpIs τ) = (steps e (jumpIs ++ trampIs) τ, (steps e (jumpIs ++ trampIs) τ).gpr ctr)
    rw [steps_append]; rfl
  jpc e τ hok := by
    have hr := fin_rel hok jumpIs ej1
    exact (hr.reg ejpc).trans (SlotCfg.sv_ld _ _ _)
  e1 := e1
  pc := by decide +kernel
  sp := by decide +kernel
  ra := by decide +kernel
  w := by decide +kernel
  ein e τ s hth hr := by
    obtain ⟨z, hz⟩ : ∃ z, z = CE.fin ei e1 := ⟨_, rfl⟩
    have hr : Rel CE (K.I e τ) z s := by rw [hz]; exact hr
    have h1 : z.gpr (r 3) = ⟨.reg K.sp, -off A K.fr⟩ := by rw [hz]; decide +kernel
    have h2 : z.gpr (r 4) = ⟨.reg (r 5), 0#_⟩ := by rw [hz]; decide +kernel
    exact ⟨(hr.reg h1).trans (SlotCfg.sv_own e τ), (hr.reg h2).trans (SlotCfg.sv_reg _ _)⟩

/-- **C78**, switching -/
theorem C78_ppc32_macho_jump : port.JumpSpec := (S 4).jumpSpec
/-- **C78**, on-top calls: control goes to `ontop_fcontext_tail`, as if it had been called in place of the suspended call -/
theorem C78_ppc32_macho_ontop : port.OntopSpecTo fun e _ => e Lab.tail := by
  have h := (S 4).ontopSpecTo
  intro e σ τ m h1 h2 h3
  obtain ⟨t1, t2⟩ := h e σ τ m h1 h2 h3
  exact ⟨t1.trans (BitVec.add_zero _), t2⟩
/-- **C78**, on-top calls: the function to be executed is the fourth argument of `ontop_fcontext_tail` -/
theorem C78_ppc32_macho_ontop_fn (e : Env A) (τ : St A) : (exec e port.ontop τ).1.gpr (r 6) = port.argFn τ :=
  steps_dest e ontopIs (.g (r 6)) (by decide) τ
/-- **C78**, new contexts, except the alignment of the stack pointer (only a multiple of 4) -/
theorem C78_ppc32_macho_make : (prt 2).MakeSpec := M.makeSpec

/-! ### First activation -/

/-- `τ` is the entry state of a call that activates the context made by the call `σ` of `make_fcontext` for the first time. -/
structure First (e : Env A) (σ τ : St A) : Prop where
  to : port.argF τ = port.resM (exec e port.make σ).1
  mem : ∀ a, InR a (port.argF τ) 336 → τ.mem a = (exec e port.make σ).1.mem a
  frame : ∀ a, InR a (port.argF τ) 336 → ¬ InR a (port.fctx τ) 244

theorem minh (e : Env A) : ∃ σ, (∀ a, InR a (port.resM (exec e port.make σ).1) (port.argTop σ - port.resM (exec e port.make σ).1).toNat →
      ¬ InR a (σ.gpr port.sp - off A port.mscratch) (port.mscratch + A.k)) ∧ ∃ τ, First e σ τ := by
  obtain ⟨σ, h0, τ, h1, h2, h3⟩ := M.inhabited e (.inl rfl) (by decide) (by decide) rfl (by decide) (by decide) (by decide) (by decide)
  exact ⟨σ, h0, τ, h1, h2, h3⟩

theorem sp_mod (v : A.W) (h : v.toNat % 16 = 0) (n : Nat) (hn : n ≤ 336) : (v - off A n).toNat % 16 = (16 - n % 16) % 16 := by
  rw [BitVec.toNat_sub]
  have e1 : (off A n).toNat = n := by rw [off, BitVec.toNat_ofNat, Nat.mod_eq_of_lt (by show n < 4294967296; omega)]
  have e2 : 2 ^ (8 * A.k) = 16 * 268435456 := rfl
  rw [e1, e2]
  omega

/-- **C78**, new contexts: the stack pointer the context function is entered with is 4 mod 16; the ABI demands a multiple of 16. -/
theorem C78_ppc32_macho_misaligned (e : Env A) (σ τ : St A) (h : First e σ τ) : ((port.enter e τ).1.gpr port.sp).toNat % 16 = 4 ∧ ¬ port.aligned ((port.enter e τ).1.gpr port.sp) := by
  obtain ⟨h1, h2, h3⟩ := h
  obtain ⟨s, hx, hr, hto, -⟩ := M.entry (σ := σ) h1 h2 h3
  have hsp : s.gpr (r 1) = τ.gpr (r 4) + off A 244 := hr.reg M.sp
  rw [show port.enter e τ = (prt 2).enter e τ from rfl, hx]
  have key : (s.gpr (r 1)).toNat % 16 = 4 := by
    have hto : τ.gpr (r 4) = (σ.gpr (r 3) &&& mask A 4) - off A 336 := hto
    rw [hsp, hto]
    have hm := and_mask_toNat (σ.gpr (r 3)) 4
    obtain ⟨v, hv⟩ : ∃ v, v = σ.gpr (r 3) &&& mask A 4 := ⟨_, rfl⟩
    have h16 : v.toNat % 16 = 0 := by rw [hv, hm]; omega
    rw [← hv]
    have : v - off A 336 + off A 244 = v - off A 92 := by
      have : off A 336 = off A 92 + off A 244 := by decide
      rw [this]; generalize off A 92 = x; generalize off A 244 = y; grind
    rw [this, sp_mod v h16 92 (by decide)]
  refine ⟨key, fun h => ?_⟩
  have h : (s.gpr (r 1)).toNat % 16 = 0 := h
  have key : (s.gpr (r 1)).toNat % 16 = 4 := key
  omega

/-- **C78**: therefore new contexts do not meet the ABI. -/
theorem C78_ppc32_macho_make_violated : ¬ port.MakeSpec := by
  intro h
  obtain ⟨e, -⟩ : ∃ e : Env A, e = fun _ => 0#_ := ⟨_, rfl⟩
  obtain ⟨σ, h0, τ, hf⟩ := minh e
  obtain ⟨-, -, -, h4⟩ := h e σ h0
  obtain ⟨-, -, -, -, -, h6, -⟩ := h4 τ hf.to hf.mem hf.frame
  exact (C78_ppc32_macho_misaligned e σ τ hf).2 h6

theorem z1 : (CE.run ontopIs SSt.init).isSome = true := by decide +kernel
theorem z2 : (CE.fin ontopIs z1).gpr lr = ⟨.ld 1 236, 0#_⟩ ∧ (CE.fin ontopIs z1).gpr (r 3) = ⟨.ld 1 228, 0#_⟩ ∧ (CE.fin ontopIs z1).gpr (r 1) = ⟨.reg (r 4), off A 244⟩ := by decide +kernel

/-- **C78**, first activation by an on-top call (never done by the library: C19): `ontop_fcontext_tail` is entered with `finish` as return address, so that the program exits when the on-top
function returns, and its result object is at 8(r1), where the ABI lets it save that return address. -/
theorem C78_ppc32_macho_first_ontop (e : Env A) (σ τ : St A) (h : First e σ τ) : port.ra (exec e port.ontop τ).1 = e Lab.finish ∧
    (exec e port.ontop τ).1.gpr (r 3) = (exec e port.ontop τ).1.gpr (r 1) + off A 8 := by
  obtain ⟨h1, h2, h3⟩ := h
  have h1 : τ.gpr (r 4) = (σ.gpr (r 3) &&& mask A 4) - off A 336 := h1.trans (make_res e σ)
  obtain ⟨-, -, w3, w4⟩ := make_words e σ _ h1
  have l1 : load τ.mem (τ.gpr (r 4) + off A 236) A.k = e Lab.finish := by rw [← w3]; exact load_agree h2 (by decide) (by decide)
  have l2 : load τ.mem (τ.gpr (r 4) + off A 228) A.k = τ.gpr (r 4) + off A 252 := by rw [← w4]; exact load_agree h2 (by decide) (by decide)
  have hok : (K.I e τ).Ok CE := by
    constructor
    · intro y hy
      have hy : y ∈ [(Atom.reg (r 1), 0, off A 244), (Atom.reg (r 4), 1, 0#_), (Atom.ld 1 228, 1, off A 252)] := hy
      simp only [List.mem_cons, List.not_mem_nil, or_false] at hy
      rcases hy with rfl | rfl | rfl
      · exact (sub_add_off _ _).symm
      · exact (BitVec.add_zero _).symm
      · exact l2
    · intro i j hD
      simp only [CE, SlotCfg.CE, Bool.and_eq_true, beq_iff_eq] at hD
      obtain ⟨rfl, rfl⟩ := hD
      intro a h1 h2
      have h1 : InR a (τ.gpr (r 1) - off A 244 + off A 0) 244 := h1
      rw [show τ.gpr (r 1) - off A 244 + off A 0 = τ.gpr (r 1) - off A 244 from BitVec.add_zero _] at h1
      exact h3 a h2 h1
    · intro i
      simp only [CE, SlotCfg.CE]; repeat' split
      all_goals decide
    · intro i
      simp only [CE, SlotCfg.CE]; repeat' split
      all_goals decide
  have hr := fin_rel hok _ z1
  obtain ⟨y1, y2, y3⟩ := z2
  rw [show (exec e port.ontop τ).1 = steps e ontopIs τ from rfl]
  obtain ⟨s, hs⟩ : ∃ s, s = steps e ontopIs τ := ⟨_, rfl⟩
  have hr : Rel CE (K.I e τ) (CE.fin ontopIs z1) s := by rw [hs]; exact hr
  rw [← hs]
  have g1 : s.gpr lr = load τ.mem (τ.gpr (r 4) + off A 236) A.k := (hr.reg y1).trans (SlotCfg.sv_ld _ _ _)
  have g2 : s.gpr (r 3) = load τ.mem (τ.gpr (r 4) + off A 228) A.k := (hr.reg y2).trans (SlotCfg.sv_ld _ _ _)
  have g3 : s.gpr (r 1) = τ.gpr (r 4) + off A 244 := hr.reg y3
  refine ⟨g1.trans l1, ?_⟩
  rw [g2, l2, g3, add_off_off]

/-! ### The hypotheses can be met -/

/-- The hypotheses of `C78_ppc32_macho_jump` and `C78_ppc32_macho_ontop` can be met. -/
example (e : Env A) : ∃ σ τ m, port.Left e σ m ∧ port.Intact σ m τ ∧ port.argF τ = port.fctx σ ∧ σ.gpr (r 14) ≠ τ.gpr (r 14) := by
  obtain ⟨σ, τ, m, h1, h2, h3, h4⟩ := (S 4).inhabited e (.inl rfl) (show K.N ≤ 0x800 by decide) (show K.fr ≤ K.N by decide) (show r 3 ≠ r 1 by decide) (show r 4 ≠ r 1 by decide)
    (show r 4 ≠ r 3 by decide)
  exact ⟨σ, τ, m, h1, h2, h3, h4 _ (by decide) (by decide) (by decide)⟩

/-- The hypotheses of `C78_ppc32_macho_make` and of the theorems about first activations can be met. -/
example (e : Env A) := minh e

end Verif.Asm.Ppc32Macho
