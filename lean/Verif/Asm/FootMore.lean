import Verif.Asm.FootPorts
import Verif.Asm.FootSlot

/-! # What the routines access, and switches instruction by instruction: further ports (C81, C82) -/

namespace Verif.Asm

namespace Arm64Macho
theorem foot_eq {A : Arch} {P Q : Port A} (h : P = Q) (h1 : P.tslot = fun _ _ => False) (h2 : P.ok = fun _ => True) (h3 : P.tramp = none) (h4 : P.oarea = fun _ _ => False)
    (k1 : Q.tslot = fun _ _ => False) (k2 : Q.ok = fun _ => True) (k3 : Q.tramp = none) (k4 : Q.oarea = fun _ _ => False)
    (hf : Footprint (Extra.reg Q k1 k2 k3 k4) {}) (hl : Local (Extra.reg Q k1 k2 k3 k4) {}) :
    Footprint (Extra.reg P h1 h2 h3 h4) {} ∧ Local (Extra.reg P h1 h2 h3 h4) {} := by
  subst h; exact ⟨hf, hl⟩
theorem both : Footprint extra {} ∧ Local extra {} := foot_eq port_eq _ _ _ _ _ _ _ _ Arm64.C81_arm64 Arm64.loc
theorem C81_arm64_macho : Footprint extra {} := both.1
theorem C82_arm64_macho : Micro.Spec extra {} fun _ τ => port.argFn τ :=
  Micro.C82_of_footprints C59_arm64_macho_jump (fun _ => C59_arm64_macho_ontop) (fun e σ _ => C59_arm64_macho_make e σ) both.1 both.2
end Arm64Macho

namespace Arm64Pe
theorem sane : A.Sane := ⟨by decide, fun f => by cases f <;> exact Nat.le_trans (show _ ≤ 8 by first | exact Nat.le_refl _ | decide) (show 8 ≤ _ by decide)⟩
theorem mf : port.MakeFoot M.top M.j M.msz := .of (mi := makeIs) (mr := x 30) rfl (by decide) sane.1 (by decide +kernel)
theorem C81_arm64_pe : Footprint extra {} := M.footprint extra {} rfl mf (.inr ⟨_, _, rfl⟩)
theorem loc : Local extra {} := M.loc extra sane (fun _ h => h) (fun _ h => h) (fun h => by simp only [port, h]; trivial) (fun _ h => h)
theorem C82_arm64_pe : Micro.Spec extra {} fun _ τ => port.argFn τ := Micro.C82_of_footprints C63_arm64_pe_jump (fun h => h.elim) (fun e σ _ => C63_arm64_pe_make e σ) C81_arm64_pe loc
end Arm64Pe

end Verif.Asm
