import Verif.Fiber.Model
import Verif.Fiber.Inv
import Verif.Fiber.Prim
import Verif.Fiber.PrimO
import Verif.Fiber.Steps
import Verif.Fiber.Steps2
import Verif.Fiber.Steps3
import Verif.Fiber.Log
import Verif.Fiber.Log2
import Verif.Fiber.Spec
import Verif.Fiber.Eff
import Verif.Fiber.Two
import Verif.Fiber.Evol
import Verif.Fiber.Eqs
import Verif.Fiber.Persist
import Verif.Fiber.Props1
import Verif.Fiber.Props2
import Verif.Fiber.Props3
import Verif.Fiber.Props4
import Verif.UFiber.Model
import Verif.UFiber.Spec
import Verif.UFiber.Inv
import Verif.UFiber.Prim
import Verif.UFiber.PrimO
import Verif.UFiber.Steps
import Verif.UFiber.Steps2
import Verif.UFiber.Steps3
import Verif.UFiber.Eff
import Verif.UFiber.Log
import Verif.UFiber.Props
import Verif.UFiber.Props2
import Verif.UFiber.Props3
import Verif.UFiber.Records
import Verif.UFiber.Order
import Verif.Asm.Machine
import Verif.Asm.Spec
import Verif.Asm.Lemmas
import Verif.Asm.RegPort
import Verif.Asm.Sym
import Verif.Asm.Arm64Code
import Verif.Asm.Arm64
import Verif.Asm.RiscV64Code
import Verif.Asm.RiscV64
import Verif.Asm.LoongArch64Code
import Verif.Asm.LoongArch64
import Verif.Asm.Mips64Code
import Verif.Asm.Mips64
import Verif.Asm.X86_64Code
import Verif.Asm.X86_64
import Verif.Asm.I386Code
import Verif.Asm.I386
import Verif.Asm.SlotPort
import Verif.Asm.Mips32Code
import Verif.Asm.Mips32
import Verif.Asm.Arm32Code
import Verif.Asm.Arm32
import Verif.Asm.S390xCode
import Verif.Asm.S390x
import Verif.Asm.Ppc32Code
import Verif.Asm.Ppc32
import Verif.Asm.RegSym
import Verif.Asm.Ppc64Code
import Verif.Asm.Ppc64
import Verif.Asm.Ppc64v1
import Verif.Asm.Ppc64v1Ontop
import Verif.Asm.Ppc64v1First
import Verif.Asm.Many
import Verif.Asm.ManyPorts
import Verif.Asm.ManyWit
import Verif.Asm.ManyMacho
import Verif.Asm.ManyMore
import Verif.Asm.ManyWin
import Verif.Asm.ManySparc
import Verif.Asm.Ppc32bCode
import Verif.Asm.Ppc32b
import Verif.Mem.Word
import Verif.Mem.Layout
import Verif.Mem.Shadow
import Verif.Mem.Alloc
import Verif.Mem.Valgrind
import Verif.Mem.Pool
import Verif.Mem.Record
import Verif.Mem.RecordInv
import Verif.Mem.RecordMain
import Verif.Mem.Traits
import Verif.Detail.Schwarz
import Verif.Detail.Helpers
import Verif.Cont.Model
import Verif.Cont.Sim
import Verif.Cont.Step
import Verif.Cont.Hidden
import Verif.Cont.Props
import Verif.Asm.Sparc64Code
import Verif.Asm.Sparc64
import Verif.Build.CMakeSpec
import Verif.Build.Jam
import Verif.Backends.Spec
import Verif.Backends.Rel
import Verif.Backends.Prim
import Verif.Backends.Prim2
import Verif.Backends.Prim3
import Verif.Backends.Step
import Verif.Backends.Main
import Verif.Asm.Arm64MachoCode
import Verif.Asm.Arm64Macho
import Verif.Asm.ArmMachoCode
import Verif.Asm.ArmMacho
import Verif.Asm.X86_64MachoCode
import Verif.Asm.X86_64Macho
import Verif.Asm.X86_64PeCode
import Verif.Asm.X86_64PeClangCode
import Verif.Asm.X86_64PeMasmCode
import Verif.Asm.X86_64Pe
import Verif.Asm.Arm64PeCode
import Verif.Asm.Arm64PeMasmCode
import Verif.Asm.Arm64Pe
import Verif.Asm.ArmPeCode
import Verif.Asm.ArmPe
import Verif.Asm.I386MachoCode
import Verif.Asm.I386Macho
import Verif.Asm.Inherit
import Verif.Asm.InheritMore
import Verif.Asm.X86_64CetCode
import Verif.Asm.X86_64CetSem
import Verif.Asm.X86_64Cet
import Verif.Asm.I386PeCode
import Verif.Asm.I386PeClangCode
import Verif.Asm.I386PeMasmCode
import Verif.Asm.I386Pe
import Verif.UCont.Model
import Verif.UCont.Sim
import Verif.UCont.Hidden
import Verif.UCont.Step
import Verif.UCont.Empty
import Verif.UCont.Props
import Verif.UCont.Ontop
import Verif.Hooks.Proto
import Verif.Hooks.Trace
import Verif.Hooks.Hist
import Verif.Hooks.Split
import Verif.Hooks.Mask
import Verif.Hooks.Asan
import Verif.Hooks.Tsan
import Verif.Hooks.Winfib
import Verif.Asm.Ppc32XcoffCode
import Verif.Asm.Ppc32Xcoff
import Verif.Asm.Ppc32XcoffOntop
import Verif.Asm.Ppc32XcoffFirst
import Verif.Asm.SlotTramp
import Verif.Asm.Ppc32MachoCode
import Verif.Asm.Ppc32Macho
import Verif.Asm.Ppc64MachoCode
import Verif.Asm.Ppc64Macho
import Verif.Link.Prims
import Verif.Link.Machine
import Verif.Link.Follow
import Verif.Link.Round
import Verif.Link.Ports
import Verif.Link.Cont
import Verif.Link.Stack
import Verif.Link.Order
import Verif.Link.OrderPorts
import Verif.Asm.Foot
import Verif.Asm.FootSym
import Verif.Asm.Micro
import Verif.Asm.MicroSim
import Verif.Asm.MicroStep
import Verif.Asm.MicroSpec
import Verif.Asm.MicroWit
import Verif.Asm.FootPorts
import Verif.Asm.FootSlot
import Verif.Asm.FootMore
import Verif.Asm.FootX86
import Verif.Asm.FootI386
import Verif.Asm.FootDesc
import Verif.Asm.FootI386Pe
import Verif.Asm.FootWit
import Verif.Asm.ExitPorts
import Verif.Asm.ExitMore
import Verif.Asm.ExitMips
import Verif.Cont.Vars
import Verif.UCont.Vars
import Verif.Backends.ContSpec
import Verif.Backends.ContDecode
import Verif.Backends.ContMain
import Verif.EH.Model
import Verif.EH.Sum
import Verif.EH.Flight
import Verif.EH.Inv
import Verif.EH.InvB
import Verif.EH.Props
import Verif.EH.CModel
import Verif.EH.CProps
import Verif.EH.UModel
import Verif.EH.USum
import Verif.EH.UFlight
import Verif.EH.UInv
import Verif.EH.UProps
import Verif.EH.UCModel
import Verif.EH.UCProps
import Verif.Sync.Spec
import Verif.Sync.Step
import Verif.Sync.Props
import Verif.Sync.Gen
import Verif.Sync.USpec
import Verif.Sync.UStep
import Verif.Sync.UProps
import Verif.Sync.CSpec
import Verif.Sync.CProps
import Verif.Sync.UCSpec
import Verif.Sync.UCProps
import Verif.Fiber.Loop
import Verif.Fiber.Sched
import Verif.Fiber.Pool
import Verif.Fiber.PoolMT
import Verif.Fiber.PoolAny
import Verif.Fiber.PoolExit
import Verif.Fiber.Life
import Verif.Fiber.PoolWith
import Verif.UFiber.Loop
import Verif.UFiber.Sched
import Verif.UFiber.Pool
import Verif.UFiber.PoolMT
import Verif.UFiber.PoolAny
import Verif.UFiber.PoolExit
import Verif.UFiber.Life
import Verif.UFiber.PoolWith
import Verif.Cont.Loop
import Verif.Cont.Sched
import Verif.Cont.Pool
import Verif.Cont.PoolMT
import Verif.Cont.PoolAny
import Verif.Cont.PoolExit
import Verif.Cont.Life
import Verif.Cont.PoolWith
import Verif.UCont.Loop
import Verif.UCont.Sched
import Verif.UCont.Pool
import Verif.UCont.PoolMT
import Verif.UCont.PoolAny
import Verif.UCont.PoolExit
import Verif.UCont.Life
import Verif.UCont.PoolWith
import Verif.Migrate.Spec
import Verif.Migrate.Fiber
import Verif.Migrate.Cont
import Verif.Migrate.UFiber
import Verif.Migrate.UCont
import Verif.Asm.X86_64Guard
import Verif.Asm.InheritPe32
import Verif.Fiber.Identity
import Verif.UFiber.Identity
import Verif.Cont.Identity
import Verif.UCont.Identity
import Verif.Names.Fiber
import Verif.Names.UFiber
import Verif.Names.Cont
import Verif.Names.UCont
import Verif.Commute.FiberLog
import Verif.Commute.Fiber
import Verif.Commute.UFiberLog
import Verif.Commute.UFiber
import Verif.Commute.ContLog
import Verif.Commute.Cont
import Verif.Commute.UContLog
import Verif.Commute.UCont
