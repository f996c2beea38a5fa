import Verif.Asm.ExitPorts
import Verif.Asm.Ppc32XcoffFirst
import Verif.Asm.Ppc32Macho
import Verif.Asm.Ppc64v1First
import Verif.Asm.Sparc64

/-! # A context function that returns: PowerPC, MIPS, SPARC (C92) -/

namespace Verif.Asm

section
variable {A : Arch} {P : Port A} {C : VoidConv P} {S : Stub A}

/-- a stub that builds a frame of `n` bytes: it stores a word in the caller's linkage area, at offset `o`, and the back chain at the new stack pointer -/
theorem Port.StubOk.frame {n o : Nat} (hv : ∀ s, C.vret s = s.gpr P.sp) (hlo : C.lo = n) (ho : n ≤ o) (hhi : o + A.k ≤ n + C.hi) (hk : A.k ≤ n) (hw : n + C.hi < 2 ^ (8 * A.k))
    (ht : S.to = .sym) (hal : ∀ w : A.W, P.aligned w → P.aligned (w - off A n))
    (h : ∀ e (ρ : St A) nxt (b : A.W), b = ρ.gpr P.sp - off A n → ∃ v v', (steps e (S.is nxt) ρ).gpr P.sp = b ∧ C.arg (steps e (S.is nxt) ρ) = 0#_ ∧
      (steps e (S.is nxt) ρ).mem = store (store ρ.mem (b + off A o) A.k v) (b + off A 0) A.k v') : P.StubOk C S := by
  intro e σ ε ρ x nxt ha hsr _
  obtain ⟨b, hb⟩ : ∃ b, b = ρ.gpr P.sp - off A n := ⟨_, rfl⟩
  obtain ⟨v, v', h1, h2, h3⟩ := h e ρ nxt b hb
  rw [hsr, hv] at hb
  refine ⟨by simp only [Stub.run, ht], h2, ?_, ?_, fun a hx => ?_⟩
  · show P.aligned ((steps e (S.is nxt) ρ).gpr P.sp)
    rw [h1, hb]; exact hal _ ha
  · show (ε.gpr P.sp - (steps e (S.is nxt) ρ).gpr P.sp).toNat ≤ C.lo
    rw [h1, hb, hlo]
    have : ε.gpr P.sp - (ε.gpr P.sp - off A n) = off A n := by generalize off A n = z; grind
    rw [this, off, BitVec.toNat_ofNat]; exact Nat.mod_le _ _
  · have hx : (steps e (S.is nxt) ρ).mem a ≠ ρ.mem a := hx
    rw [hlo, ← hb]
    rw [h3] at hx
    by_cases g1 : InR a (b + off A 0) A.k
    · exact inR_off g1 (by omega) (by omega)
    by_cases g2 : InR a (b + off A o) A.k
    · exact inR_off g2 (by omega) (by omega)
    rw [store_out g1, store_out g2] at hx
    exact absurd rfl hx

theorem sub_off_off (w : A.W) (n o : Nat) : w - off A n + off A (n + o) = w + off A o := by
  rw [← add_off_off, BitVec.sub_add_cancel]

/-- the back chain and the linkage area -/
theorem frame_mem {n o q : Nat} {m : Mem A} {w b v v' : A.W} (hb : b = w - off A n) (hq : q = n + o) :
    store (store m (w + off A o) A.k v) (w + -off A n + off A 0) A.k v' = store (store m (b + off A q) A.k v) (b + off A 0) A.k v' := by
  rw [hb, hq, sub_off_off, BitVec.sub_eq_add_neg]

theorem sub_mod16 (w : A.W) {n : Nat} (hk : 4 ≤ 8 * A.k) (h : w.toNat % 2 ^ 4 = 0) (hn : n % 16 = 0) : (w - off A n).toNat % 2 ^ 4 = 0 := by
  have e2 : 2 ^ (8 * A.k) = 16 * 2 ^ (8 * A.k - 4) := by rw [show (16 : Nat) = 2 ^ 4 from rfl, ← Nat.pow_add]; congr 1; omega
  have hd : 16 ∣ 2 ^ (8 * A.k) := ⟨_, e2⟩
  rw [BitVec.toNat_sub, off, BitVec.toNat_ofNat, show (2 ^ 4 : Nat) = 16 from rfl, Nat.mod_mod_of_dvd _ hd]
  have h1 : n % 2 ^ (8 * A.k) % 16 = 0 := by rw [Nat.mod_mod_of_dvd _ hd]; exact hn
  have h2 : n % 2 ^ (8 * A.k) < 2 ^ (8 * A.k) := Nat.mod_lt _ (Nat.two_pow_pos _)
  generalize n % 2 ^ (8 * A.k) = m at *
  omega

end

namespace Ppc64

/-- `finish`, make_ppc64_sysv_elf_gas.S:154-166 (`mflr %r0; std %r0, 8(%r1); stdu %r1, -32(%r1); li %r3, 0; bl _exit; nop`), if `_exit` is in the same module as the library -/
def finish : Stub A :=
  { is := fun nxt => [.mov (r 0) lr, .st (r 0) (r 1) 8, .mov tmp (r 1), .addi (r 1) (r 1) (-off A 32), .st tmp (r 1) 0, .movi (r 3) 0#_, .movi lr nxt], to := .sym }

/-- ELFv2: first parameter in r3 -/
def void : VoidConv port := { vret := fun s => s.gpr (r 1), arg := fun s => s.gpr (r 3), lo := 32, hi := 16 }

/-- **C92**, PowerPC 64 ELFv2, `_exit` in the same module -/
theorem C92_ppc64 : port.ExitSpec void finish := by
  refine .of_make C57_ppc64_make (.frame (n := 32) (o := 40) (fun _ => rfl) rfl (by decide) (by decide) (by decide) (by decide) rfl
    (fun w h => sub_mod16 w (by decide) h rfl) fun e ρ nxt b hb => ⟨ρ.gpr lr, ρ.gpr (r 1), ?_, rfl, frame_mem (o := 8) hb rfl⟩)
  rw [hb]; exact (BitVec.sub_eq_add_neg _ _).symm

/-- `finish` if `_exit` is in another module (make_ppc64_sysv_elf_gas.S:165-166: the linker lets `bl _exit` go to a stub that takes the address of `_exit` from the entry at offset `o`
of the table to which r2 points; simplification: one load; the stub's save of r2 in the new frame is left out) -/
def finishPlt (o : Nat) : Stub A :=
  { is := fun nxt => finish.is nxt ++ [.ld (r 12) (r 2) o], to := .reg (r 12) }

/-- **C92**, PowerPC 64 ELFv2, `_exit` in another module: the stub reaches the address in the entry of the table to which r2 points *after the return of the context function*, … -/
theorem C92_ppc64_plt (o : Nat) (e : Env A) (ρ : St A) (x nxt : A.W) (hx : ∀ a, InR a (ρ.gpr (r 2) + off A o) 8 → ¬ InR a (ρ.gpr (r 1) - off A 32) 48) :
    ((finishPlt o).run e x nxt ρ).2 = load ρ.mem (ρ.gpr (r 2) + off A o) A.k ∧ ((finishPlt o).run e x nxt ρ).1.gpr (r 3) = 0#_ := by
  obtain ⟨s, hs⟩ : ∃ s, s = steps e (finish.is nxt) ρ := ⟨_, rfl⟩
  have h2 : s.gpr (r 2) = ρ.gpr (r 2) := by rw [hs]; rfl
  have h3 : s.gpr (r 3) = 0#_ := by rw [hs]; rfl
  obtain ⟨b, hb⟩ : ∃ b, b = ρ.gpr (r 1) - off A 32 := ⟨_, rfl⟩
  have hm : s.mem = store (store ρ.mem (b + off A 40) A.k (ρ.gpr lr)) (b + off A 0) A.k (ρ.gpr (r 1)) := by
    rw [hs]; exact frame_mem (o := 8) hb rfl
  rw [← hb] at hx
  have hl : load s.mem (ρ.gpr (r 2) + off A o) A.k = load ρ.mem (ρ.gpr (r 2) + off A o) A.k := by
    refine load_congr (by decide) fun a ha => ?_
    rw [hm, store_out fun hi => hx a ha (inR_off hi (by decide) (by decide)), store_out fun hi => hx a ha (inR_off hi (by decide) (by decide))]
  have hr : (finishPlt o).run e x nxt ρ = (setg s (r 12) (load s.mem (s.gpr (r 2) + off A o) A.k), load s.mem (s.gpr (r 2) + off A o) A.k) := by
    have : steps e ((finishPlt o).is nxt) ρ = setg s (r 12) (load s.mem (s.gpr (r 2) + off A o) A.k) := by
      show steps e (finish.is nxt ++ [.ld (r 12) (r 2) o]) ρ = _
      rw [steps_append, ← hs]; rfl
    show (steps e ((finishPlt o).is nxt) ρ, (steps e ((finishPlt o).is nxt) ρ).gpr (r 12)) = _
    rw [this, setg_gpr, if_pos rfl]
  rw [hr, h2, hl]
  exact ⟨rfl, h3⟩

/-- … which need not be the table of the library: a function that is called through a pointer need not preserve r2.  `ε` is the entry state of the context function; the table of
another module has the entry `y` at offset `o`, outside the new frame. The function returns as the ABI demands, with r2 pointing to that table and all other memory as at its entry, and
the stub goes to `y`. -/
theorem C92_ppc64_other_module (o : Nat) (e : Env A) (ε : St A) (x nxt T y : A.W) (hx : ∀ a, InR a (T + off A o) 8 → ¬ InR a (ε.gpr (r 1) - off A 32) 48) :
    ∃ ρ, port.ReturnedTo (void.vret ε) ε ρ (port.ra ε) ∧ ρ.gpr (r 2) = T ∧ (∀ a, ¬ InR a (T + off A o) 8 → ρ.mem a = ε.mem a) ∧ ((finishPlt o).run e x nxt ρ).2 = y := by
  refine ⟨⟨fun q => if q = r 2 then T else ε.gpr q, ε.fpr, store ε.mem (T + off A o) A.k y⟩, ⟨rfl, rfl, fun q hq => ?_, fun _ _ => rfl⟩, rfl, fun a ha => store_out ha, ?_⟩
  · have : ∀ q ∈ port.saved, q ≠ r 2 := by decide
    exact if_neg (this q hq)
  · obtain ⟨ρ, hρ⟩ : ∃ ρ : St A, ρ = ⟨fun q => if q = r 2 then T else ε.gpr q, ε.fpr, store ε.mem (T + off A o) A.k y⟩ := ⟨_, rfl⟩
    have h2 : ρ.gpr (r 2) = T := by rw [hρ]; rfl
    have h1 : ρ.gpr (r 1) = ε.gpr (r 1) := by rw [hρ]; rfl
    have hm : ρ.mem = store ε.mem (T + off A o) A.k y := by rw [hρ]
    rw [← hρ, (C92_ppc64_plt o e ρ x nxt (by rw [h2, h1]; exact hx)).1, h2, hm, load_store_same _ _ _ _ (by decide)]

end Ppc64

namespace Ppc64v1

/-- `finish`, make_ppc64_sysv_elf_gas.S:154-166 and make_ppc64_sysv_xcoff_gas.S:125-137, if `_exit` is in the same module (see `Ppc64.finishPlt`); `stdu` stores the back chain first -/
def finish : Stub A :=
  { is := fun nxt => [.mov (r 0) lr, .st (r 0) (r 1) 8, .mov ctr (r 1), .addi (r 1) (r 1) (-off A 32), .st ctr (r 1) 0, .movi (r 3) 0#_, .movi lr nxt], to := .sym }

/-- ELFv1, AIX: first parameter in r3 -/
def void (x : Bool) : VoidConv (portT x) := { vret := fun s => s.gpr (r 1), arg := fun s => s.gpr (r 3), lo := 32, hi := 16 }

/-- **C92**, PowerPC 64 with function descriptors (ELFv1 and AIX), `_exit` in the same module -/
theorem C92_ppc64v1 (x : Bool) : (portT x).ExitSpec (void x) finish := by
  refine .of_make (C76_ppc64v1_make x) (.frame (n := 32) (o := 40) (fun _ => rfl) rfl (by decide) (by show 48 ≤ 32 + 16; decide) (by decide) (by show 32 + 16 < _; decide) rfl
    (fun w h => sub_mod16 w (by decide) h rfl) fun e ρ nxt b hb => ⟨ρ.gpr lr, ρ.gpr (r 1), ?_, rfl, frame_mem (o := 8) hb rfl⟩)
  rw [hb]; exact (BitVec.sub_eq_add_neg _ _).symm

end Ppc64v1

namespace Ppc32Xcoff

/-- `finish`, make_ppc32_sysv_xcoff_gas.S:113-125 (`mflr 0; stw 0, 4(1); stwu 1, -16(1); li 3, 0; bl ._exit; nop`), if `_exit` is in the same module (see `Ppc64.finishPlt`) -/
def finish : Stub A :=
  { is := fun nxt => [.mov (r 0) lr, .st (r 0) (r 1) 4, .mov ctr (r 1), .addi (r 1) (r 1) (-off A 16), .st ctr (r 1) 0, .movi (r 3) 0#_, .movi lr nxt], to := .sym }

/-- AIX: first parameter in r3 -/
def void : VoidConv portT := { vret := fun s => s.gpr (r 1), arg := fun s => s.gpr (r 3), lo := 16, hi := 8 }

/-- **C92**, PowerPC 32 AIX, `_exit` in the same module -/
theorem C92_ppc32_xcoff : portT.ExitSpec void finish := by
  refine .of_make C77_ppc32_xcoff_make (.frame (n := 16) (o := 20) (fun _ => rfl) rfl (by decide) (by show 24 ≤ 16 + 8; decide) (by decide) (by show 16 + 8 < _; decide) rfl
    (fun w h => sub_mod16 w (by decide) h rfl) fun e ρ nxt b hb => ⟨ρ.gpr lr, ρ.gpr (r 1), ?_, rfl, frame_mem (o := 4) hb rfl⟩)
  rw [hb]; exact (BitVec.sub_eq_add_neg _ _).symm

end Ppc32Xcoff

namespace Ppc32

/-- `finish`, make_ppc32_sysv_elf_gas.S:126-138 (`bl 2f; 2: mflr %r30; addis %r30, ...; addi %r30, ...; li %r3, 0; bl _exit + 0x8000@plt`); `l` is the address of the label 2, `toc` that
of `.Ltoc`, which the procedure linkage table expects in r30 -/
def finish (l toc : A.W) : Stub A := { is := fun nxt => [.movi lr l, .mov (r 30) lr, .addi (r 30) (r 30) (toc - l), .movi (r 3) 0#_, .movi lr nxt], to := .sym }

/-- first parameter in r3 -/
def void : VoidConv port := { vret := fun s => s.gpr (r 1), arg := fun s => s.gpr (r 3), lo := 0, hi := 0 }

/-- **C92**, PowerPC 32 Linux -/
theorem C92_ppc32 (l toc : A.W) : port.ExitSpec void (finish l toc) :=
  .of_make C38_ppc32_make (.plain (fun _ => rfl) (fun _ _ _ => rfl) (fun _ _ _ => rfl) (fun _ _ _ => rfl) rfl)

/-- **C92**, PowerPC 32 Linux: `_exit` is entered, through the procedure linkage table, with the address it needs in r30 -/
theorem C92_ppc32_r30 (l toc : A.W) (e : Env A) (x nxt : A.W) (ρ : St A) : ((finish l toc).run e x nxt ρ).1.gpr (r 30) = toc :=
  (show ((finish l toc).run e x nxt ρ).1.gpr (r 30) = l + (toc - l) from rfl).trans (add_sub_cancel' _ _)

end Ppc32

namespace Ppc32b

/-- `finish` as on Linux, make_ppc32_sysv_elf_gas.S:126-138 -/
def finish (l toc : A.W) : Stub A := { is := fun nxt => [.movi lr l, .mov (r 30) lr, .addi (r 30) (r 30) (toc - l), .movi (r 3) 0#_, .movi lr nxt], to := .sym }

def void : VoidConv port := { vret := fun s => s.gpr (r 1), arg := fun s => s.gpr (r 3), lo := 0, hi := 0 }

/-- **C92**, PowerPC 32, other ELF systems -/
theorem C92_ppc32b (l toc : A.W) : port.ExitSpec void (finish l toc) :=
  .of_make C38_ppc32b_make (.plain (fun _ => rfl) (fun _ _ _ => rfl) (fun _ _ _ => rfl) (fun _ _ _ => rfl) rfl)

end Ppc32b

namespace Ppc32Macho

/-- `finish`, make_ppc32_sysv_macho_gas.S:139-150 (`bcl 20, 31, L2; L2: mflr r4; addis r4, ...; lwz r4, ...(r4); mtctr r4; li r3, 0; bctr`); `l` is the address of the label `L2`, `p` that
of `Lexitp`, a constant that holds the address of `_exit` -/
def finish (l p : A.W) : Stub A := { is := fun _ => [.movi lr l, .mov (r 4) lr, .addi (r 4) (r 4) (p - l), .ld (r 4) (r 4) 0, .mov ctr (r 4), .movi (r 3) 0#_], to := .reg ctr }

/-- first parameter in r3; the constant is still there -/
def void (p : A.W) : VoidConv (prt 2) :=
  { vret := fun s => s.gpr (r 1), arg := fun s => s.gpr (r 3), lo := 0, hi := 0, kept := fun _ _ ρ x => load ρ.mem p A.k = x }

/-- **C92**, PowerPC 32 Darwin (with the 4-byte alignment this port gives the stack pointer, see C78) -/
theorem C92_ppc32_macho (l p : A.W) : (prt 2).ExitSpec (void p) (finish l p) := by
  refine .of_make C78_ppc32_macho_make fun e σ ε ρ x nxt hal hsr hk => ?_
  have hs : ((finish l p).run e x nxt ρ).1.gpr (prt 2).sp = ε.gpr (prt 2).sp := hsr
  refine ⟨?_, rfl, by rw [hs]; exact hal, by rw [hs, BitVec.sub_self]; exact Nat.zero_le _, fun a h => absurd rfl h⟩
  refine Eq.trans (b := load ρ.mem p A.k) ?_ hk
  show load ρ.mem (l + (p - l) + off A 0) A.k = _
  rw [add_sub_cancel', add_off_zero]

end Ppc32Macho

namespace Sparc64

/-- make_sparc64_sysv_elf_gas.S:63-64, at `trampoline + 12` (`call _exit; clr %o0`); `x`: the address of `_exit`, which the linker puts into the instruction. -/
def finish (e : Env) (x : W) (s : St) : St × W := (step e (set s (.o 7) (e.tramp + off A 12)) (.add (.g 0) 0#_ (.o 0)), x)

/-- **C92**, SPARC64: `fn` returns (to the address in `%o7` plus 8, with the stack pointer it was entered with); then the instruction behind the trampoline is reached, which calls
`_exit` with argument 0 on the same stack frame. -/
theorem C92_sparc64 {e e' : Env} {σ τ ρ : St} {pc x : W} (hτ : τ.o 0 = (exec e make σ).1.o 0)
    (hm : ∀ a, CData σ a → τ.mem a = (exec e make σ).1.mem a) (ha : ∀ a, CData σ a → ¬ Writes τ a)
    (hpc : pc = (exec e tramp (exec e' jump τ).1).1.o 7 + off A 8) (hsp : ρ.o 6 = (exec e tramp (exec e' jump τ).1).1.o 6) :
    pc = e.tramp + off A 12 ∧ (finish e x ρ).2 = x ∧ (finish e x ρ).1.o 0 = 0#_ ∧ (finish e x ρ).1.o 6 = ρ.o 6 ∧
    area ((finish e x ρ).1.o 6) = area (τ.o 0) + off A CC64FSZ ∧ (finish e x ρ).1.mem = ρ.mem := by
  obtain ⟨_, _, _, _, h5, _, h7, _⟩ := C39_sparc64_enter (e' := e') hτ hm ha
  have h6 : (finish e x ρ).1.o 6 = ρ.o 6 := rfl
  refine ⟨hpc.trans h5, rfl, ?_, h6, ?_, rfl⟩
  · simp [finish, step, get, set, upd]
  · rw [h6, hsp]; exact h7

end Sparc64

end Verif.Asm
