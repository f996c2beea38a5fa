import Verif.Asm.Ppc64MachoCode
import Verif.Asm.SlotPort

/-! # PowerPC 64 Mach-O (Darwin): switching between suspended contexts meets its specification; on-top calls and new contexts do not (C79) -/

namespace Verif.Asm.Ppc64Macho

/-- registers and frame layout -/
def K : SlotCfg A where
  sp := r 1
  h := r 3
  to := r 4
  d := r 5
  fn := r 6
  ra := lr
  fr := 184
  N := 184
  oH := 152
  oPC := 176
  LG := [(r 14, 8), (r 15, 16), (r 16, 24), (r 17, 32), (r 18, 40), (r 19, 48), (r 20, 56), (r 21, 64), (r 22, 72), (r 23, 80), (r 24, 88), (r 25, 96), (r 26, 104), (r 27, 112), (r 28, 120), (r 29, 128), (r 30, 136), (r 31, 144), (cr, 160), (lr, 168)]
  LF := []
  nz := true

/-- Darwin ABI: the address of the result object in r3, arguments in r4, r5, r6 (r3, r4, r5 if the function returns a word or nothing); a structure of 16 bytes is
passed in two registers; return address in the link register; callee-saved r1 (stack pointer), r14-r31, fields of the condition register; r1 is a multiple of 16.
The ABI also makes f14-f31 callee-saved; they are not in `fsaved`, see `C79_ppc64_macho_loses_fprs`.
`ok`: see `SlotCfg.Ok` (frames and result objects do not overlap; the address of the result object is not null). -/
def port : Port A where
  jump := jump
  ontop := ontop
  make := make
  tramp := none
  finish := Lab.finish
  sp := r 1
  saved := [r 14, r 15, r 16, r 17, r 18, r 19, r 20, r 21, r 22, r 23, r 24, r 25, r 26, r 27, r 28, r 29, r 30, r 31, cr]
  fsaved := []
  ra s := s.gpr lr
  spRet s := s.gpr (r 1)
  argF s := s.gpr (r 4)
  argD s := s.gpr (r 5)
  argFn s := s.gpr (r 6)
  slot s a := InR a (s.gpr (r 3)) 16
  resF σ τ := load τ.mem (σ.gpr (r 3)) A.k
  resD σ τ := load τ.mem (σ.gpr (r 3) + off A 8) A.k
  inF s := s.gpr (r 3)
  inD s := s.gpr (r 4)
  oinF s := s.gpr (r 4)
  oinD s := s.gpr (r 5)
  fctx s := s.gpr (r 1) - off A 184
  frame := 184
  keep := 184
  tslot s a := InR a (load s.mem (s.gpr (r 4) + off A 152) A.k) 16
  oarea _ _ := False
  ok := K.Ok
  argTop s := s.gpr (r 3)
  argMFn s := s.gpr (r 5)
  resM s := s.gpr (r 3)
  mspRet s := s.gpr (r 1)
  mscratch := 0
  mkeep := 240
  mslot c a := InR a (c + off A 224) 16
  aligned w := w.toNat % 2 ^ 4 = 0

/-! ## Switching -/

theorem wf : K.Wf where
  w := by decide
  N := by decide
  tw := by decide
  oH := by decide
  oPC := by decide
  LG := by decide
  LF := by decide
  via _ := rfl

theorem save_nz : ∃ h, SlotCfg.SaveOk K ((K.C false).fin (jumpPreIs ++ jumpNzIs) h) := ⟨by decide +kernel, by decide +kernel, by decide +kernel, by decide +kernel, by decide +kernel, by decide +kernel⟩
theorem save_z : ∃ h, SlotCfg.SaveOk K ((K.C false).fin (jumpPreIs ++ jumpZIs) h) := ⟨by decide +kernel, by decide +kernel, by decide +kernel, by decide +kernel, by decide +kernel, by decide +kernel⟩
theorem ontop_save : ∃ h, SlotCfg.SaveOk K ((K.C false).fin ontopIs h) := ⟨by decide +kernel, by decide +kernel, by decide +kernel, by decide +kernel, by decide +kernel, by decide +kernel⟩

theorem exec_ontop (e : Env A) (σ : St A) : exec e port.ontop σ = (steps e ontopIs σ, (steps e ontopIs σ).gpr ctr) := by
  rw [show port.ontop = ontop from rfl, ontop, exec]

theorem left {e : Env A} {σ : St A} {m : Mem A} (hok : port.ok σ) (hl : port.Left e σ m) : SlotCfg.Frame K σ m (K.own σ) := by
  have hI := SlotCfg.I_ok wf false e σ hok (by simp)
  rcases hl with h | h
  · have : m = (steps e (jumpPreIs ++ jumpNzIs) σ).mem ∨ m = (steps e (jumpPreIs ++ jumpZIs) σ).mem := by
      rw [← h, show port.jump = jump from rfl, jump, steps_append, steps_append]
      simp only [exec]
      split
      · exact .inr rfl
      · exact .inl rfl
    rcases this with rfl | rfl
    · obtain ⟨h1, h2⟩ := save_nz; exact SlotCfg.frame_of wf (fin_rel hI _ h1) h2
    · obtain ⟨h1, h2⟩ := save_z; exact SlotCfg.frame_of wf (fin_rel hI _ h1) h2
  · obtain ⟨h1, h2⟩ := ontop_save
    have h' : m = (steps e ontopIs σ).mem := h.symm.trans (congrArg (fun p => p.1.mem) (exec_ontop e σ))
    rw [h']
    exact SlotCfg.frame_of wf (fin_rel hI _ h1) h2

theorem pre_r3 : ∃ h, ((K.C true).fin jumpPreIs h).gpr (r 3) = ⟨.ld 1 152, 0#_⟩ := ⟨by decide +kernel, by decide +kernel⟩
theorem j1 : ((K.C true).run (jumpPreIs ++ jumpNzIs) SSt.init).isSome = true := by decide +kernel
theorem j2 : SlotCfg.JumpOk K ctr ((K.C true).fin (jumpPreIs ++ jumpNzIs) j1) := ⟨⟨by decide +kernel, by decide +kernel, by decide +kernel, by decide +kernel⟩, by decide +kernel, by decide +kernel, by decide +kernel, by decide +kernel⟩

def J : SlotJump port where
  K := K
  wf := wf
  ji := jumpPreIs ++ jumpNzIs
  jr := ctr
  jrun e τ hI hnz := by
    obtain ⟨h1, h2⟩ := pre_r3
    have hr := fin_rel hI jumpPreIs h1
    have h3 : (steps e jumpPreIs τ).gpr (r 3) ≠ 0#_ := by
      have := hr.reg h2
      rw [SlotCfg.sv_ld] at this
      show (steps (K.I e τ).e jumpPreIs (K.I e τ).σ).gpr (r 3) ≠ 0#_
      rw [this]; exact hnz rfl
    rw [show port.jump = jump from rfl, jump]
    simp only [exec, steps_append, h3, if_false]
  left := left
  j1 := j1
  j2 := j2
  conv := ⟨rfl, rfl, rfl, rfl, rfl, rfl, rfl, rfl, rfl, rfl, rfl, rfl⟩
  res := ⟨rfl, rfl⟩
  sav := by simp only [port]; decide
  also _ _ _ _ _ _ := trivial

/-- **C79**, switching between suspended contexts (without the floating point registers) -/
theorem C79_ppc64_macho_jump : port.JumpSpec := J.jumpSpec

theorem inh (e : Env A) : ∃ σ τ m, port.Left e σ m ∧ port.Intact σ m τ ∧ port.argF τ = port.fctx σ ∧ (∀ q, q ≠ r 1 → q ≠ r 3 → q ≠ r 4 → σ.gpr q ≠ τ.gpr q) :=
  J.inhabited e (.inr rfl) (show K.N ≤ 0x800 by decide) (show K.fr ≤ K.N by decide) (show r 3 ≠ r 1 by decide) (show r 4 ≠ r 1 by decide)
    (show r 4 ≠ r 3 by decide)

/-- The hypotheses of `C79_ppc64_macho_jump` can be met. -/
example (e : Env A) : ∃ σ τ m, port.Left e σ m ∧ port.Intact σ m τ ∧ port.argF τ = port.fctx σ ∧ σ.gpr (r 14) ≠ τ.gpr (r 14) := by
  obtain ⟨σ, τ, m, h1, h2, h3, h4⟩ := inh e
  exact ⟨σ, τ, m, h1, h2, h3, h4 _ (by decide) (by decide) (by decide)⟩

/-! ### Floating point registers -/

/-- `port` with the floating point registers the ABI makes callee-saved -/
def portF : Port A := { port with
  fsaved := [f 14, f 15, f 16, f 17, f 18, f 19, f 20, f 21, f 22, f 23, f 24, f 25, f 26, f 27, f 28, f 29, f 30, f 31] }

/-- the instruction writes no floating point register -/
def noF (i : Instr A) : Bool := match i.dest with
  | some (.f _) => false
  | _ => true

theorem steps_fpr (e : Env A) (q : A.F) (l : List (Instr A)) (hl : ∀ i ∈ l, noF i = true) (s : St A) : (steps e l s).fpr q = s.fpr q := by
  have := steps_dest e l (.f q) (fun i hi hq => by
    have := hl i hi
    rw [noF, hq] at this
    cases this) s
  simp only [get_f] at this
  exact this

theorem brz_fpr (e : Env A) (q : A.F) (a b c : List (Instr A)) (x y z : A.R) (ha : ∀ i ∈ a, noF i = true) (hb : ∀ i ∈ b, noF i = true) (hc : ∀ i ∈ c, noF i = true) (τ : St A) :
    (exec e (.brz a x (.jmp b y) (.jmp c z)) τ).1.fpr q = τ.fpr q := by
  simp only [exec]
  split
  · exact (steps_fpr e q b hb _).trans (steps_fpr e q a ha _)
  · exact (steps_fpr e q c hc _).trans (steps_fpr e q a ha _)

/-- **C79**: the routines leave all floating point registers as they are, so a resumed context finds those of the resumer. -/
theorem C79_ppc64_macho_loses_fprs (e : Env A) (τ : St A) (q : A.F) : (exec e port.jump τ).1.fpr q = τ.fpr q := by
  rw [show port.jump = jump from rfl, jump]
  exact brz_fpr e q _ _ _ _ _ _ (by decide) (by decide) (by decide) τ

/-- **C79**: therefore switching does not preserve the callee-saved floating point registers. -/
theorem C79_ppc64_macho_fprs_violated : ¬ portF.JumpSpec := by
  intro h
  obtain ⟨e, -⟩ : ∃ e : Env A, e = fun _ => 0#_ := ⟨_, rfl⟩
  obtain ⟨σ, τ, m, h1, h2, h3, -⟩ := inh e
  obtain ⟨τ', hτ'⟩ : ∃ τ' : St A, τ' = { τ with fpr := fun q => ~~~ σ.fpr q } := ⟨_, rfl⟩
  have i : portF.Intact σ m τ' := by
    rw [hτ']; exact ⟨h2.ok, h2.ok', h2.tslot, h2.slot, h2.mem, h2.frame⟩
  have a : portF.argF τ' = portF.fctx σ := by rw [hτ']; exact h3
  have := (h e σ τ' m h1 i a).1.fsaved (f 14) (by simp [portF])
  have hl := C79_ppc64_macho_loses_fprs e τ' (f 14)
  rw [show portF.jump = port.jump from rfl, hl, hτ'] at this
  have h0 : ∀ y : BitVec 64, ~~~ y ≠ y := by
    intro y hy
    have h1 := congrArg (fun v : BitVec 64 => v.getLsbD 0) hy
    simp only [BitVec.getLsbD_not] at h1
    cases h2 : y.getLsbD 0 <;> rw [h2] at h1 <;> simp at h1
  exact h0 _ this

/-! ### On-top calls -/

/-- `ontopIs` without the move of the function to CTR -/
def ontopHIs : List (Instr A) := ontopIs.dropLast

theorem ontop_split : ontopIs = ontopHIs ++ [.mov ctr (r 6)] := (List.dropLast_concat_getLast (l := ontopIs) (by rw [ontopIs]; exact List.cons_ne_nil _ _)).symm

/-- **C79**, on-top calls: the function is entered ... -/
theorem C79_ppc64_macho_ontop_function (e : Env A) (τ : St A) : (exec e port.ontop τ).2 = port.argFn τ := by
  have h2 := steps_dest e ontopHIs (.g (r 6)) (by decide) τ
  simp only [get_g] at h2
  rw [exec_ontop, ontop_split, steps_append]
  obtain ⟨s, hs⟩ : ∃ s, s = steps e ontopHIs τ := ⟨_, rfl⟩
  rw [← hs] at h2 ⊢
  exact h2

/-- **C79**, on-top calls: ... with the address of the resumer's result object, where its result must not go, -/
theorem C79_ppc64_macho_ontop_result (e : Env A) (τ : St A) : (exec e port.ontop τ).1.gpr (r 3) = τ.gpr (r 3) := by
  have h := steps_dest e ontopIs (.g (r 3)) (by decide) τ
  simp only [get_g] at h
  rw [exec_ontop]; exact h

theorem o1 : ((K.C true).run ontopIs SSt.init).isSome = true := by decide +kernel
theorem o2 : ((K.C true).fin ontopIs o1).gpr (r 4) = ⟨.ld 1 152, 0#_⟩ := by decide +kernel

/-- **C79**, on-top calls: ... and with the address of the suspended call's result object instead of the context as first member of its argument. -/
theorem C79_ppc64_macho_ontop_argument (e : Env A) (σ τ : St A) (m : Mem A) (hl : port.Left e σ m) (hi : port.Intact σ m τ) (ha : port.argF τ = port.fctx σ) :
    port.oinF (exec e port.ontop τ).1 = σ.gpr (r 3) := by
  obtain ⟨t1, hf, hh, ok', ok, hd⟩ := J.target hl hi ha
  have hok := SlotCfg.I_ok J.wf true e τ ok' (fun _ => hd)
  have hr := fin_rel hok ontopIs o1
  have h4 : (steps e ontopIs τ).gpr (r 4) = K.thid τ := (hr.reg o2).trans (SlotCfg.sv_ld _ _ _)
  rw [exec_ontop]
  exact h4.trans hh

theorem o3 : SlotCfg.RestoreOk K ((K.C true).fin ontopIs o1) := ⟨by decide +kernel, by decide +kernel, by decide +kernel, by decide +kernel⟩
theorem o4 : ((K.C true).fin ontopIs o1).valid 2 = true ∧ look 2 0 A.k ((K.C true).fin ontopIs o1).log = some (some (.w ⟨.reg (r 1), -off A 184⟩)) ∧
    look 2 8 A.k ((K.C true).fin ontopIs o1).log = some (some (.w ⟨.reg (r 5), 0#_⟩)) := ⟨by decide +kernel, by decide +kernel, by decide +kernel⟩

/-- **C79**, on-top calls: the function runs with the stack pointer, callee-saved registers and return address of the suspended call, and `transfer_t{context, data}` is
in the result object of the suspended call. -/
theorem C79_ppc64_macho_ontop_context (e : Env A) (σ τ : St A) (m : Mem A) (hl : port.Left e σ m) (hi : port.Intact σ m τ) (ha : port.argF τ = port.fctx σ) :
    (exec e port.ontop τ).1.gpr port.sp = σ.gpr port.sp ∧ (∀ q ∈ port.saved, (exec e port.ontop τ).1.gpr q = σ.gpr q) ∧
    port.ra (exec e port.ontop τ).1 = port.ra σ ∧ port.resF σ (exec e port.ontop τ).1 = port.fctx τ ∧ port.resD σ (exec e port.ontop τ).1 = port.argD τ ∧
    ∀ a, (exec e port.ontop τ).1.mem a ≠ τ.mem a → InR a (port.fctx τ) port.frame ∨ port.slot σ a := by
  obtain ⟨t1, hf, hh, ok', ok, hd⟩ := J.target hl hi ha
  have hok := SlotCfg.I_ok J.wf true e τ ok' (fun _ => hd)
  have hr := fin_rel hok ontopIs o1
  obtain ⟨r1, r2, -, r4⟩ := J.restored hr o3 hf t1
  obtain ⟨v, w1, w2⟩ := o4
  have b2 : (J.K.I e τ).β 2 = σ.gpr (r 3) := hh
  have k1 := hr.word (i := 2) (o := 0) v (show 0 + A.k ≤ 16 by decide) w1
  have k2 := hr.word (i := 2) (o := 8) v (show 8 + A.k ≤ 16 by decide) w2
  rw [b2] at k1 k2
  rw [show (σ.gpr (r 3)) + off A 0 = σ.gpr (r 3) from BitVec.add_zero _] at k1
  have fr := fun a h => hr.frame a h
  have ow := o3.w
  rw [exec_ontop]
  obtain ⟨s, hs⟩ : ∃ s, s = steps e ontopIs τ := ⟨_, rfl⟩
  rw [show steps (J.K.I e τ).e ontopIs (J.K.I e τ).σ = s from hs.symm] at r1 r2 r4 k1 k2 fr
  rw [← hs]
  refine ⟨r1, r2, r4, k1.trans (SlotCfg.sv_own e τ), k2.trans (SlotCfg.sv_reg _ _), fun a h => ?_⟩
  obtain ⟨i, ⟨x, hx, rfl⟩, h2⟩ := fr a h
  rcases ow x hx with h0 | h0
  · rw [h0] at h2
    have h2 : InR a (K.own τ + off A 0) 184 := h2
    rw [show K.own τ + off A 0 = K.own τ from BitVec.add_zero _] at h2
    exact .inl h2
  · rw [h0] at h2
    have h2 : InR a ((J.K.I e τ).β 2 + off A 0) 16 := h2
    rw [b2, show σ.gpr (r 3) + off A 0 = σ.gpr (r 3) from BitVec.add_zero _] at h2
    exact .inr h2

/-- **C79**: therefore on-top calls do not meet their specification. -/
theorem C79_ppc64_macho_ontop_violated : ¬ port.OntopSpec := by
  intro h
  obtain ⟨e, -⟩ : ∃ e : Env A, e = fun _ => 0#_ := ⟨_, rfl⟩
  obtain ⟨σ, τ, m, h1, h2, h3, -⟩ := inh e
  have h4 := C79_ppc64_macho_ontop_argument e σ τ m h1 h2 h3
  have h5 := (h e σ τ m h1 h2 h3).2.1
  obtain ⟨s, hs⟩ : ∃ s, s = (exec e port.ontop τ).1 := ⟨_, rfl⟩
  rw [← hs] at h4 h5
  clear hs
  have h6 : σ.gpr (r 3) = port.fctx τ := h4.symm.trans h5.argF
  refine (h2.slot (port.fctx τ) ?_).2 ?_
  · show InR (port.fctx τ) (σ.gpr (r 3)) 16
    rw [h6]; simp [InR]
  · show InR (port.fctx τ) (port.fctx τ) 184
    simp [InR]

/-! ### New contexts -/

/-- the memory `make_fcontext` leaves -/
theorem make_mem (e : Env A) (σ : St A) (c : A.W) (hc : c = (σ.gpr (r 3) &&& BitVec.ofNat _ 0xfffffff0) - off A 240) : (exec e make σ).1.mem =
    store (store (store (store σ.mem (c + off A 180) 4 ((σ.gpr (r 5)).setWidth _)) (c + off A 184) A.k (off A 0)) (c + off A 152) A.k (c + off A 224))
      (c + off A 168) A.k (e Lab.finish) := by
  have hfin : e Lab.l1 + (e Lab.finish - e Lab.l1) = e Lab.finish := by generalize e Lab.l1 = x; generalize e Lab.finish = y; grind
  rw [← hfin, hc, BitVec.sub_eq_add_neg]; rfl

/-- **C79**, new contexts: the upper half of the address of the stack is lost. -/
theorem C79_ppc64_macho_make_truncates (e : Env A) (σ : St A) : port.resM (exec e port.make σ).1 = (σ.gpr (r 3) &&& BitVec.ofNat _ 0xfffffff0) - off A 240 := by
  rw [BitVec.sub_eq_add_neg]; rfl

/-- **C79**, new contexts: `make_fcontext` returns to its caller and preserves the stack pointer and the callee-saved registers. -/
theorem C79_ppc64_macho_make_returns (e : Env A) (σ : St A) : port.ReturnedTo (port.mspRet σ) σ (exec e port.make σ).1 (exec e port.make σ).2 := by
  have h : ∀ q ∈ port.saved, ∀ i ∈ makeIs, i.dest ≠ some (.g q) := by simp only [port]; decide
  refine ⟨rfl, rfl, fun q hq => ?_, fun q hq => ?_⟩
  · exact steps_dest e makeIs (.g q) (h q hq) σ
  · simp [port] at hq

theorem exec_make (e : Env A) (σ : St A) : exec e port.make σ = exec e make σ := rfl

theorem bad_size (h : (BitVec.ofNat 64 (2 ^ 40) - ((BitVec.ofNat 64 (2 ^ 40) &&& BitVec.ofNat 64 0xfffffff0) - BitVec.ofNat 64 240)).toNat ≤ 240 + 64) : False := absurd h (by decide)

theorem bad_disj (a : BitVec 64)
    (h1 : (a - ((BitVec.ofNat 64 (2 ^ 40) &&& BitVec.ofNat 64 0xfffffff0) - BitVec.ofNat 64 240)).toNat <
      (BitVec.ofNat 64 (2 ^ 40) - ((BitVec.ofNat 64 (2 ^ 40) &&& BitVec.ofNat 64 0xfffffff0) - BitVec.ofNat 64 240)).toNat)
    (h2 : (a - (BitVec.ofNat 64 (2 ^ 41) - BitVec.ofNat 64 0)).toNat < 0 + 8) : False := by
  rw [show BitVec.ofNat 64 (2 ^ 41) - BitVec.ofNat 64 0 = 0x20000000000#64 by decide, BitVec.toNat_sub] at h2
  rw [show (BitVec.ofNat 64 (2 ^ 40) &&& BitVec.ofNat 64 0xfffffff0) - BitVec.ofNat 64 240 = 0xffffffffffffff10#64 by decide,
    show (BitVec.ofNat 64 (2 ^ 40) - 0xffffffffffffff10#64).toNat = 2 ^ 40 + 240 by decide, BitVec.toNat_sub] at h1
  simp only [BitVec.toNat_ofNat] at h1 h2
  have := a.isLt
  omega

/-- **C79**: with a stack above 4 GiB, the context is not on the stack given: new contexts do not meet their specification. -/
theorem C79_ppc64_macho_make_violated : ¬ port.MakeSpec := by
  intro h
  obtain ⟨σ, h3, h1⟩ : ∃ σ : St A, σ.gpr (r 3) = off A (2 ^ 40) ∧ σ.gpr (r 1) = off A (2 ^ 41) :=
    ⟨⟨fun q => if q = r 3 then off A (2 ^ 40) else off A (2 ^ 41), fun _ => 0#_, fun _ => 0#_⟩, by simp, by simp only [show r 1 ≠ r 3 by decide, if_false]⟩
  obtain ⟨e, -⟩ : ∃ e : Env A, e = fun _ => 0#_ := ⟨_, rfl⟩
  have hc := C79_ppc64_macho_make_truncates e σ
  have h4 := h e σ
  obtain ⟨x, hx⟩ : ∃ x, x = exec e port.make σ := ⟨_, rfl⟩
  rw [← hx] at hc h4
  clear hx
  rw [show port.argTop σ = σ.gpr (r 3) from rfl, hc, h3] at h4
  have hb := (h4 (fun a ha hb => ?_)).2.1.2
  · exact bad_size hb
  · rw [show σ.gpr port.sp = off A (2 ^ 41) from h1] at hb
    exact bad_disj a ha hb

/-- the upper half of a double word -/
theorem load_hi (m : Mem A) (a : A.W) : BitVec.extractLsb' 32 32 (load m a 8) = load m (a + off A 4) 4 := by
  apply BitVec.eq_of_getLsbD_eq
  intro i hi
  have h1 : (32 + i) / 8 = 4 + i / 8 := by omega
  have h2 : (32 + i) % 8 = i % 8 := by omega
  rw [BitVec.getLsbD_extractLsb', load_getLsbD _ _ _ _ (by omega), load_getLsbD _ _ _ _ (by omega), h1, h2, BitVec.add_assoc,
    show (BitVec.ofNat _ (4 + i / 8) : A.W) = off A 4 + BitVec.ofNat _ (i / 8) from BitVec.ofNat_add _ _]
  simp [hi]

/-- what `make_fcontext` leaves in the words the first switch reads -/
theorem make_words (e : Env A) (σ : St A) (c : A.W) (hc : c = (σ.gpr (r 3) &&& BitVec.ofNat _ 0xfffffff0) - off A 240) :
    load (exec e make σ).1.mem (c + off A 152) A.k = c + off A 224 ∧ load (exec e make σ).1.mem (c + off A 180) 4 = (σ.gpr (r 5)).setWidth _ := by
  have hw : 240 ≤ 2 ^ (8 * A.k) := by decide
  have k8 : A.k = 8 := rfl
  rw [make_mem e σ c hc]
  constructor
  · rw [load_store_off (by omega) (by omega) (by omega), load_store_same _ _ _ _ (by omega)]
  · rw [load_store_off (by omega) (by omega) (by omega), load_store_off (by omega) (by omega) (by omega), load_store_off (by omega) (by omega) (by omega),
      load_store_same _ _ _ _ (by omega)]

theorem p1 : ((K.C true).run jumpPreIs SSt.init).isSome = true := by decide +kernel
theorem p2 : ((K.C true).fin jumpPreIs p1).gpr ctr = ⟨.ld 1 176, 0#_⟩ := by decide +kernel
theorem p3 : ((K.C true).fin jumpPreIs p1).gpr (r 3) = ⟨.ld 1 152, 0#_⟩ := by decide +kernel

theorem brz_ctr (e : Env A) (a b c : List (Instr A)) (hb : ∀ i ∈ b, i.dest ≠ some (.g ctr)) (hc : ∀ i ∈ c, i.dest ≠ some (.g ctr)) (x : A.R) (τ : St A) :
    (exec e (.brz a x (.jmp b ctr) (.jmp c ctr)) τ).2 = (steps e a τ).gpr ctr := by
  simp only [exec]
  split
  · have := steps_dest e b (.g ctr) hb (steps e a τ); simp only [get_g] at this; exact this
  · have := steps_dest e c (.g ctr) hc (steps e a τ); simp only [get_g] at this; exact this

theorem brz_r3 (e : Env A) (a b c : List (Instr A)) (hc : ∀ i ∈ c, i.dest ≠ some (.g (r 3))) (y : A.R) (τ : St A) (hz : (steps e a τ).gpr (r 3) ≠ 0#_) :
    (exec e (.brz a (r 3) (.jmp b y) (.jmp c y)) τ).1.gpr (r 3) = (steps e a τ).gpr (r 3) := by
  simp only [exec, hz, if_false]
  have := steps_dest e c (.g (r 3)) hc (steps e a τ); simp only [get_g] at this; exact this

/-- the state in which the first switch to a new context branches -/
theorem first (e : Env A) (σ τ : St A) (ha : port.argF τ = port.resM (exec e port.make σ).1)
    (hmem : ∀ a, InR a (port.argF τ) port.mkeep → τ.mem a = (exec e port.make σ).1.mem a)
    (hd : ∀ a, InR a (port.argF τ) port.mkeep → ¬ InR a (port.fctx τ) port.frame) (hok : port.ok τ) :
    (steps e jumpPreIs τ).gpr (r 3) = port.argF τ + off A 224 ∧
    BitVec.extractLsb' 32 32 ((steps e jumpPreIs τ).gpr ctr) = (port.argMFn σ).setWidth 32 := by
  rw [exec_make] at hmem ha
  obtain ⟨c, hcc⟩ : ∃ c, c = (σ.gpr (r 3) &&& BitVec.ofNat _ 0xfffffff0) - off A 240 := ⟨_, rfl⟩
  obtain ⟨w1, w2⟩ := make_words e σ c hcc
  have hr := C79_ppc64_macho_make_truncates e σ
  rw [exec_make, ← hcc] at hr
  obtain ⟨x, hx⟩ : ∃ x, x = exec e make σ := ⟨_, rfl⟩
  rw [← hx] at hmem ha w1 w2 hr
  clear hx
  have hc : τ.gpr (r 4) = c := ha.trans hr
  rw [show port.argF τ = c from hc, show port.mkeep = 240 from rfl] at hmem hd
  have hw : 240 ≤ 2 ^ (8 * A.k) := by decide
  have k8 : A.k = 8 := rfl
  have hth : K.thid τ = c + off A 224 := by
    show load τ.mem (τ.gpr (r 4) + off A 152) A.k = _
    rw [hc, ← w1]; exact load_agree hmem (by omega) hw
  have hI := SlotCfg.I_ok wf true e τ hok (fun _ a h => by
    rw [hth] at h
    have h' : InR a (c + off A 224) 16 := h
    have hb : InR a c 240 := inR_off h' (by omega) hw
    refine ⟨fun h2 => ?_, hd a hb⟩
    have h2' : InR a (c + off A 0) 184 := by rw [show τ.gpr K.to = c from hc] at h2; rw [show c + off A 0 = c from BitVec.add_zero _]; exact h2
    exact inR_disj h' (by omega) (by omega) (by omega) h2')
  have hrel := fin_rel hI jumpPreIs p1
  have g3 : (steps e jumpPreIs τ).gpr (r 3) = K.thid τ := (hrel.reg p3).trans (SlotCfg.sv_ld _ _ _)
  have gc : (steps e jumpPreIs τ).gpr ctr = load τ.mem (τ.gpr (r 4) + off A 176) A.k := (hrel.reg p2).trans (SlotCfg.sv_ld _ _ _)
  rw [g3, gc, show port.argF τ = c from hc, hth]
  refine ⟨rfl, ?_⟩
  rw [hc]
  have h2 : load τ.mem (c + off A 180) 4 = load x.1.mem (c + off A 180) 4 := load_agree hmem (by omega) hw
  have := load_hi τ.mem (c + off A 176)
  rw [add_off_off, h2, w2] at this
  exact this

/-- **C79**, new contexts: the first switch goes to an address whose upper half is the lower half of the address of the context function, -/
theorem C79_ppc64_macho_make_entry (e : Env A) (σ τ : St A) (ha : port.argF τ = port.resM (exec e port.make σ).1)
    (hmem : ∀ a, InR a (port.argF τ) port.mkeep → τ.mem a = (exec e port.make σ).1.mem a)
    (hd : ∀ a, InR a (port.argF τ) port.mkeep → ¬ InR a (port.fctx τ) port.frame) (hok : port.ok τ) :
    BitVec.extractLsb' 32 32 (exec e port.jump τ).2 = (port.argMFn σ).setWidth 32 := by
  rw [show port.jump = jump from rfl, jump, brz_ctr e _ _ _ (by decide) (by decide)]
  have h := (first e σ τ ha hmem hd hok).2
  obtain ⟨x, hx⟩ : ∃ x, x = steps e jumpPreIs τ := ⟨_, rfl⟩
  rw [← hx] at h ⊢
  exact h

theorem halves (y : BitVec 64) (h : BitVec.extractLsb' 32 32 y = BitVec.setWidth 32 y) : y.toNat / 2 ^ 32 = y.toNat % 2 ^ 32 := by
  have h2 := congrArg BitVec.toNat h
  rw [BitVec.extractLsb'_toNat, BitVec.toNat_setWidth, Nat.shiftRight_eq_div_pow] at h2
  have := y.isLt
  omega

/-- **C79**, new contexts: ... so not to the context function unless the two halves of its address happen to be equal, -/
theorem C79_ppc64_macho_make_entry_wrong (e : Env A) (σ τ : St A) (ha : port.argF τ = port.resM (exec e port.make σ).1)
    (hmem : ∀ a, InR a (port.argF τ) port.mkeep → τ.mem a = (exec e port.make σ).1.mem a)
    (hd : ∀ a, InR a (port.argF τ) port.mkeep → ¬ InR a (port.fctx τ) port.frame) (hok : port.ok τ)
    (hf : (port.argMFn σ).toNat / 2 ^ 32 ≠ (port.argMFn σ).toNat % 2 ^ 32) :
    (exec e port.jump τ).2 ≠ port.argMFn σ := by
  intro h
  have h1 := C79_ppc64_macho_make_entry e σ τ ha hmem hd hok
  rw [h] at h1
  obtain ⟨y, hy⟩ : ∃ y : BitVec 64, y = port.argMFn σ := ⟨_, rfl⟩
  rw [← hy] at h1 hf
  exact hf (halves y h1)

/-- **C79**, new contexts: ... and it passes the address of the transfer_t, not the context, as first member of the argument. -/
theorem C79_ppc64_macho_make_argument (e : Env A) (σ τ : St A) (ha : port.argF τ = port.resM (exec e port.make σ).1)
    (hmem : ∀ a, InR a (port.argF τ) port.mkeep → τ.mem a = (exec e port.make σ).1.mem a)
    (hd : ∀ a, InR a (port.argF τ) port.mkeep → ¬ InR a (port.fctx τ) port.frame) (hok : port.ok τ) (hz : port.argF τ + off A 224 ≠ 0#_) :
    port.inF (port.enter e τ).1 = port.argF τ + off A 224 := by
  have h := (first e σ τ ha hmem hd hok).1
  rw [show port.enter e τ = exec e port.jump τ from rfl, show port.jump = jump from rfl, jump]
  have h3 := brz_r3 e jumpPreIs jumpZIs jumpNzIs (by decide) ctr τ (by rw [h]; exact hz)
  rw [h] at h3
  obtain ⟨x, hx⟩ : ∃ x, x = exec e (.brz jumpPreIs (r 3) (.jmp jumpZIs ctr) (.jmp jumpNzIs ctr)) τ := ⟨_, rfl⟩
  rw [← hx] at h3 ⊢
  exact h3

/-- The hypotheses of the three theorems about the first switch can be met: a stack with top 0x9000, a resumer with stack pointer 0x20000, a context function at 0x4000. -/
example (e : Env A) : ∃ σ τ : St A, port.argF τ = port.resM (exec e port.make σ).1 ∧ (∀ a, InR a (port.argF τ) port.mkeep → τ.mem a = (exec e port.make σ).1.mem a) ∧
    (∀ a, InR a (port.argF τ) port.mkeep → ¬ InR a (port.fctx τ) port.frame) ∧ port.ok τ ∧ (port.argMFn σ).toNat / 2 ^ 32 ≠ (port.argMFn σ).toNat % 2 ^ 32 ∧
    port.argF τ + off A 224 ≠ 0#_ := by
  obtain ⟨σ, h3, h5⟩ : ∃ σ : St A, σ.gpr (r 3) = off A 0x9000 ∧ σ.gpr (r 5) = off A 0x4000 :=
    ⟨⟨fun q => if q = r 3 then off A 0x9000 else off A 0x4000, fun _ => 0#_, fun _ => 0#_⟩, by simp, by simp only [show r 5 ≠ r 3 by decide, if_false]⟩
  have hc : off A 0x8f10 = (σ.gpr (r 3) &&& BitVec.ofNat _ 0xfffffff0) - off A 240 := by
    rw [h3]; exact (by decide : (0x8f10#64 = (0x9000#64 &&& BitVec.ofNat 64 0xfffffff0) - 240#64))
  have hr := C79_ppc64_macho_make_truncates e σ
  have hw := (make_words e σ _ hc).1
  rw [← hc] at hr
  rw [← exec_make] at hw
  obtain ⟨x, hx⟩ : ∃ x, x = exec e port.make σ := ⟨_, rfl⟩
  rw [← hx] at hr hw
  refine ⟨σ, ⟨fun q => if q = r 1 then off A 0x20000 else if q = r 4 then off A 0x8f10 else off A 0x11000, fun _ => 0#_, x.1.mem⟩, ?_⟩
  rw [← hx]
  clear hx
  obtain ⟨τ, hτ⟩ : ∃ τ : St A, τ = ⟨fun q => if q = r 1 then off A 0x20000 else if q = r 4 then off A 0x8f10 else off A 0x11000, fun _ => 0#_, x.1.mem⟩ := ⟨_, rfl⟩
  rw [← hτ]
  have g1 : τ.gpr (r 1) = off A 0x20000 := by rw [hτ]; simp
  have g3 : τ.gpr (r 3) = off A 0x11000 := by rw [hτ]; simp only [show r 3 ≠ r 1 by decide, show r 3 ≠ r 4 by decide, if_false]
  have g4 : τ.gpr (r 4) = off A 0x8f10 := by rw [hτ]; simp only [show r 4 ≠ r 1 by decide, if_false, if_true]
  have gm : τ.mem = x.1.mem := by rw [hτ]
  clear hτ
  have go : K.own τ = off A 0x1ff48 := by show τ.gpr (r 1) - off A 184 = _; rw [g1]; exact (by decide : (0x20000#64 - 184#64 = 0x1ff48#64))
  have gt : K.thid τ = off A 0x8ff0 := by
    show load τ.mem (τ.gpr (r 4) + off A 152) A.k = _
    rw [g4, gm, hw]; exact (by decide : (0x8f10#64 + 224#64 = 0x8ff0#64))
  have tn : ∀ n, n < 2 ^ 32 → (off A n).toNat = n := fun n hn => by
    show (BitVec.ofNat 64 n).toNat = n
    rw [BitVec.toNat_ofNat]; omega
  have ap : ∀ b n, b < 2 ^ 32 → n < 2 ^ 32 → b + n ≤ 0x1ff48 → ∀ a, InR a (off A b) n → ¬ InR a (K.own τ) 184 := fun b n hb hn hs a h1 => by
    rw [go]
    exact inR_apart (by rw [tn _ (by omega), tn _ (by omega)]; omega) (by rw [tn _ (by omega)]; show _ ≤ 2 ^ 64; omega) h1
  refine ⟨g4.trans hr.symm, fun a _ => by rw [gm], ?_, ⟨?_, ?_, ?_, ?_⟩, ?_, ?_⟩
  · rw [show port.argF τ = _ from g4]; exact ap _ _ (by omega) (by decide) (by decide)
  · rw [show τ.gpr K.to = _ from g4]; exact ap _ _ (by omega) (by decide) (by decide)
  · rw [gt]; exact ap _ _ (by omega) (by decide) (by decide)
  · rw [show τ.gpr K.h = _ from g3]; exact ap _ _ (by omega) (by decide) (by decide)
  · intro _; rw [show τ.gpr K.h = _ from g3]; exact (by decide : (0x11000#64 ≠ 0#64))
  · rw [show port.argMFn σ = _ from h5, tn _ (by omega)]; decide
  · rw [show port.argF τ = _ from g4]; exact (by decide : (0x8f10#64 + 224#64 ≠ 0#64))

end Verif.Asm.Ppc64Macho
