import Verif.Asm.Arm64
import Verif.Asm.Arm64MachoCode

/-! # ARM64 Mach-O: the switching routines meet their specification (C59)

The routines are, instruction for instruction, those of the ELF port (with `fp`, `lr` for `x29`, `x30`); the calling convention is the same as far as it matters here. -/

namespace Verif.Asm.Arm64Macho
open Verif.Asm.Arm64

/-- the calling convention of the ELF port (`Arm64.port`), with the Mach-O routines -/
def port : Port A := { Arm64.port with jump := jump, ontop := ontop, make := make }

theorem port_eq : port = Arm64.port := by
  show { Arm64.port with jump := jump, ontop := ontop, make := make } = { Arm64.port with jump := Arm64.jump, ontop := Arm64.ontop, make := Arm64.make }
  have h1 : jump = Arm64.jump := rfl
  have h2 : ontop = Arm64.ontop := rfl
  have h3 : make = Arm64.make := rfl
  rw [h1, h2, h3]

/-- **C59**, switching -/
theorem C59_arm64_macho_jump : port.JumpSpec := port_eq ▸ C31_arm64_jump
/-- **C59**, on-top calls -/
theorem C59_arm64_macho_ontop : port.OntopSpec := port_eq ▸ C31_arm64_ontop
/-- **C59**, new contexts -/
theorem C59_arm64_macho_make : port.MakeSpec := port_eq ▸ C31_arm64_make

/-- The hypotheses of the theorems on switching are met by a context suspended at `sp = 0x10000` and a resumer with different register contents. -/
example (e : Env A) : ∃ σ τ m, port.Left e σ m ∧ port.Intact σ m τ ∧ port.argF τ = port.fctx σ ∧ σ.gpr (x 19) ≠ τ.gpr (x 19) := by
  rw [port_eq]
  obtain ⟨τ, m, h⟩ := S.inhabited e ⟨fun _ => 0x10000#_, fun _ => 0#_, fun _ => 0#_⟩ ⟨fun _ => 5#_, fun _ => 0#_, fun _ => 0#_⟩ 0x20000#_
    (by decide) (by decide)
  exact ⟨_, τ, m, h.1, h.2.1, h.2.2.1, by rw [h.2.2.2.2 (x 19) (by decide) (by decide)]; decide⟩

end Verif.Asm.Arm64Macho
