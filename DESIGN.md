# Formal model of boostorg/context in Lean 4 -- design

`properties.jsonl` lists the properties, `MANIFEST.json` (generated by `tools/manifest.py`) maps each to the theorems that
state it (`Cnn_...`), `seeded/LOG.jsonl` lists wrong programs and the theorems that reject them.

## 1. Trusted base

* Lean 4.33.0's kernel. Every property theorem depends on at most `propext`, `Classical.choice`, `Quot.sound`.
  No own axioms, no compiled evaluation (`decide +kernel` is evaluated by the kernel).
* The statements: the `Cnn_` theorems and the small vocabulary they use (`Fiber/Spec`, `UFiber/Spec`, `Cont/Props`,
  `Backends/Spec`, `Asm/Spec`, `Asm/Many` up to `Spec`, the "Specification" sections of `Mem/*` and `Detail/*`).
* The reading of the C++ headers and of the assembler files: the code is not executed here. Each definition cites the file and
  lines it models; every simplification is named in the same comment. The instruction lists `Asm/*Code.lean` are generated from
  the text of the `.S`/`.asm` files by `tools/asm2lean.py`, which rejects any line it does not know; each instruction carries
  its source line.
* The semantics given to the C++ core language where the library relies on it (lifetime of locals, stack unwinding,
  `noexcept` => terminate) and to the machine instructions used by the assembler files (`Asm/Machine`, and `Asm/Sparc64` for
  register windows).

## 2. Models

| modules | models | style | properties |
|---|---|---|---|
| `Fiber/*` | `fiber_fcontext.hpp` 67-384: handles, creation, resume, resume_with, destruction by forced unwinding, termination and stack release; any number of contexts and threads | `step : State -> Tid -> Op -> Res`; user code is adversarial (any op may come next), a history is any list of `(thread, op)`; undefined behaviour, assertion failure and `std::terminate` are distinct results | C01-C20, C54, C55 |
| `Cont/*` | `continuation_fcontext.hpp` 67-398 with `callcc` | own machine, simulated by the fiber machine (refinement), so that the fiber theorems carry over | C21 |
| `UFiber/*` | `fiber_ucontext.hpp` 67-553, `fiber_winfib.hpp` 65-417: activation records with `from`, `ontop`, `force_unwind`, `terminated`, thread-local current record; `UFiber/Records`: `current()`, contents of the records and contexts executed kept apart | as `Fiber` | C22-C26, C56, C86 |
| `UCont/*` | `continuation_ucontext.hpp` 66-549, `continuation_winfib.hpp` 65-456 with `callcc` | own machine, simulated by `UFiber` step by step (`callcc` = two fiber steps) | C68-C71, C91 |
| `Hooks/*` | the optional instrumentation of `fiber_ucontext.hpp`/`continuation_ucontext.hpp` (split stacks, ASAN, TSAN) and the operating system resources of `*_winfib.hpp` | machines over the switch events (`Proto`) that the UFiber/UCont machines are proved to emit (`Trace`, `Hist`); the runtimes' side is modelled after compiler-rt, libgcc and the Windows API documentation; `Hooks/Mask`: the signal masks that `getcontext`/`swapcontext` save and install (POSIX) | C72-C75, C87 |
| `Backends/*` | the two machines side by side | simulation relation between `Fiber` and `UFiber`, checked for every operation; `Backends/Cont*`: the same for `Cont` and `UCont`, through their images in the fiber machines | C27, C88 |
| `Asm/*` | make/jump/ontop of the ports listed in section 5 | byte addressed memory over `BitVec`, instruction lists executed by `exec`; specification `Asm/Spec` speaks only about the calling convention; proofs by symbolic execution (`Sym`) for all registers and memories | C30-C39, C57- |
| `Asm/Many*` | any number of contexts on disjoint stacks, on any number of threads, switching with the routines of a port | transition system, invariant | C40 |
| `Asm/Foot*` | which bytes each instruction of the routines reads and writes | footprints from the symbolic runs | C81 |
| `Asm/Micro*` | the machine of `Asm/Many` with the routines executed instruction by instruction, threads interleaved | simulation by the atomic machine | C82 |
| `Link/*` | the handle-level model of `fiber_fcontext.hpp` on top of the machine of `Asm/Many` | every library step as a list of low-level calls; simulation | C80 |
| `Link/Stack` | `create_fiber1/2`, `create_context1/2` (`Mem/Layout`) joined with `make_fcontext` and the first switch of each port | bounds of the two specifications combined | C83 |
| `Mem/Layout`, `Mem/Shadow` | address arithmetic of create_fiber1/2, preallocated, CET shadow stack bookkeeping | functions on `BitVec w`, any `w` | C41, C46, C47 |
| `Mem/Alloc` | fixedsize (malloc and mmap), protected (POSIX and Windows), pooled `allocate`/`deallocate` on an arbitrary operating system | histories | C42, C43 |
| `Mem/Traits` | `stack_traits` (POSIX, Windows) | histories with arbitrary OS answers | C44 |
| `Mem/Pool` | lifetime of the pool shared by copies of an allocator | interleavings of atomic operations | C45 |
| `Link/Order`, `Link/OrderPorts`, `UFiber/Order` | `operator bool`, `!`, `<`, `<<` on the words of the machine of C80, and on the records of `UFiber`, `UCont` | functions of machine state and history | C90 |
| `Mem/Record`, `RecordInv`, `RecordMain` | allocator objects of user code, of control records and of `destroy()`; creation and destruction of contexts in small steps (fcontext, ucontext, winfib) | interleaved steps of any threads | C89 |
| `Mem/Valgrind` | the same allocators with `BOOST_USE_VALGRIND`, `allocate()`/`deallocate()` split at the client requests | inductive histories of several threads | C85 |
| `Asm/Exit`, `ExitPorts`, `ExitMore`, `ExitMips` | the stub `finish` of `make_fcontext` (straight-line code, then a call of `_exit`) | machine states; the context function is any state change a calling convention allows | C92 |
| `EH/*` | the calls of `__cxa_throw`, `__cxa_begin_catch`, `__cxa_end_catch` that each step of the fiber machine makes (`CModel`: of the continuation machine, `UModel`: of the ucontext fiber machine, `UCModel`: of the ucontext continuation machine), the thread's `__cxa_eh_globals`; ghost: one such state per context | any number of threads and contexts; user handlers end at any time | C93 |
| `Sync/*` | executions of the machines of `fiber` and `continuation`, on fcontext and on ucontext, as sequences of steps; happens-before | threads started at any time; accesses to one `fiber`/`continuation` object are synchronised by the program | C94 |
| `Migrate/*` | no code of its own: the permutation of threads applied to the four machines `Fiber`, `Cont`, `UFiber`, `UCont` | permutation; equality of results | C96 |
| `Fiber/Identity`, `UFiber/Identity`, `Cont/Identity`, `UCont/Identity` | no code of its own: `resume_with()` with the function that returns its argument, on the four machines | computation; equality up to one name | C97 |
| `Names/*` | no code of its own: the exchange of two object names applied to the machines | permutation; equality of results | C98 |
| `Commute/*` | no code of its own: two orders of two switches | closed form of `resume()`; equality up to renaming; simulation | C99 |
| `Build/CMake` | `CMakeLists.txt` 13-166 (defaults, file names), stub files for universal binaries | functions on strings | C84 |
| `Build/Jam` | `build/Jamfile.v2`, alternatives of `asm_sources` (`JamTable` is generated by `tools/jam2lean.py`) | table, requests are arbitrary functions | C84 |
| `Detail/Schwarz` | `src/fiber.cpp`, `src/continuation.cpp` 23-50 | histories | C28 |
| `Detail/Helpers` | tuple/apply/invoke/exchange/prefetch, splitting the record pointer for `makecontext` | functions on lists / words | C48, C50-C53 |

## 3. How each property is proved

* C01-C03, C07, C08, C17: one inductive invariant over the reachable states of the fiber machine (`Fiber/Inv`, preservation in
  `Steps*`), theorems are corollaries for every reachable state. C07/C10/C06 use invariants about the event log (`Log`, `Log2`).
* C04-C06, C10-C14, C16, C18-C20: two-state theorems about one `step` in an arbitrary reachable state, and history theorems
  ("once", "never again", "unchanged until") by induction over arbitrary continuations (`Evol`, `Persist`, `Two`).
* C09, C15: induction over arbitrary continuations between the start and the end of a destructor / of a suspension.
* C54: case analysis of every non-user state; C55: a lexicographic measure on frames, captures and contexts.
* C21: forward simulation of the continuation machine by the fiber machine; the tuple type confusion of
  `continuation::resume_with` with an lvalue callable is a theorem of its own.
* C22-C26, C56: as for the fiber machine, with the hypothesis that no never-started fiber was destroyed; the deviations from
  the documentation (C23-C26) are stated as what the code does, with a concrete history that violates the documented claim.
* C91: C25 and C26 through the simulation of C68 (thread stays in the target: also in the middle of a simulated `callcc` of another thread); single steps for targets
  suspended in `callcc()` by direct computation.
* C84: case analysis of the string tests for arbitrary processor names; for b2, two alternatives that match one request are compatible, and compatible alternatives of the table are equal
  (evaluated over the whole table by the kernel).
* C72-C75: `events` reads off a step of the machine which instrumented places it passes; every history yields a `Legal` event sequence (`Trace.legal`, `Hist.legal`); the
  claims are invariants over `Legal` sequences. The hypothesis "no never-started fiber was destroyed" is that of C22.
* C86: `UFiber/Records` refines the `UFiber` machine: record designated by `current()`, context saved in a record and context executed are separate. Without throwing copies the two machines do the same (C86_step_coherent); with one, an invariant (`Lost`) preserved by every step.
* C87: `Hooks/Mask`: as C72, over the events of the UFiber/UCont machines; the environment's answer at a creation is the mask of the acting thread. With fcontext a switch leaves the mask alone (`doc/rationale.qbk` 26): nothing to prove.
* C68-C71: forward simulation of the continuation machine by the `UFiber` machine (`UCont/Sim`, `Step`); since `callcc` enters the function at once, the
  hypothesis "no never-started context was destroyed" of C22 is an invariant here. The failure theorems are equivalences with an explicit list of situations.
* C27: simulation; for each rule a pair of runs shows that it is needed (`C27_restrictions_needed`).
* C88: a step of either continuation machine is one or two fiber steps (C21, C68), to which C27 applies; a call stack is determined by its image in the fiber machine and the set of
  `callcc()` temporaries, which both machines number alike (`Cont/Vars`, `UCont/Vars`); both machines reject the same operations (`reject_iff`).
* C90: handles are addresses of data on the suspended contexts' own stacks (C80), which are disjoint (invariant of C40); they do not move while a context stays suspended. For ucontext the word is
  the identity of the record: `UFiber/Order`.
* C65 (`Asm/Inherit`, `Asm/InheritMore`): what a first activation passes on from `make_fcontext`'s caller, by symbolic execution of make, jump and the stub in sequence.
* C28, C44, C45, C42, C85: induction over histories. C89: inductive invariant (reference count = number of objects that refer to the storage; each phase of a stack knows its objects). C41, C43, C46, C47, C48, C53: modular arithmetic.
* C30-C39, C57-: `JumpSpec`, `OntopSpec`, `MakeSpec` for each port by symbolic execution with a separation argument;
  C40: invariant of the many-contexts machine from these three specifications (`Many*`: every port but x86_64 with the stack protector option and PowerPC 64 Darwin; SPARC64 has a machine of its own, `ManySparc`, because of its register windows; ARM64 and ARM Windows without on-top calls, which do not meet `OntopSpec` there; on i386 Windows a call of `make_fcontext` needs a finite exception handler chain, field `mok`).
  C80: `Link/Prims` decomposes every step of the fiber model into calls of the routines; `Link/Machine`, `Link/Follow` simulate them on the machine of C40 (an abstract handle is
  encoded by the address the routine delivered); `age` (number of suspensions) identifies the suspended call a handle belongs to; `Link/Round` states the result, `Link/Ports`
  instantiates it, `Link/Cont` carries it over to `continuation` through the refinement of C21. Assumed of the compiled library: between calls it executes arbitrary code that does not write into saved frames, and it calls the routines as the ABI demands.
* C83 (`Link/Stack`): the placement of C41/C47 gives the top address, `MakeAt` of the port the distance of the context data and of the entry stack pointer from it. `home` (bytes a function may use above its entry stack pointer) is taken from the calling conventions and is trusted; on PowerPC 64 with descriptors (112) and s390x (176) it needs the exact entry stack pointer, elsewhere the 64-byte gap alone suffices. On PowerPC 64 the linkage and parameter area (112 bytes in ELFv1/AIX, `make_fcontext` reserves 64) reaches up to 48 bytes beyond the address passed to `make_fcontext`, i.e. only the gap of the library keeps it off the control block.
* C81: every access of a symbolic run is inside the declared areas (`FootSym`); what a routine does depends only on the bytes it reads (`Foot`). C82 (`MicroSpec`): commuting each
  instruction of a call with everything other threads do until the call's last instruction, by the footprints (`MicroSim`, `MicroStep`); user code between calls is arbitrary except that it does
  not write into other contexts' stacks, frames of suspended calls, or what a call in progress accesses. `FootWit`: an execution with two overlapping switches, for every port.
* C92: the stub is executed symbolically from any state that a function may return in; that the stub is the return address, and the stack pointer at entry, come from C31-C39/C76-C78.
* C93 (`continuation`: histories of `EH.C` are mapped to histories of `EH`, `callcc` being two steps, likewise `EH.UC` to `EH.U`; ucontext: the same argument over the machine of `UFiber`, where who waits for whom, which the fcontext fiber guarantees always, is part of the invariant, since `force_unwind` stays set): two inductive invariants over the fiber machine extended with the runtime's per-thread state, one for "no jump inside a catch block", one for "switches without exceptions"; the latter
  describes the thread's state by the chain of contexts that wait in `~fiber`. Both rules speak about the state before the step, so they do not excuse the library's own handlers.
* C95: depth from the well-formedness invariant of stacks (which activation may lie on which), by induction on the stack; loops by induction on the number of rounds, one half of a round computed symbolically; the scheduler by induction on the sequence of choices, from a loop of one round; contexts that resume each other by induction on the sequence of choices, with the invariant that the handles shared designate the contexts of the group that wait, each in `resume()` on top of its own stack (with `resume()` in `Pool.lean`, with `resume_with()` in `PoolWith.lean`, with several threads in `PoolMT.lean`; `PoolAny.lean` constructs such a group of every size, by induction; `PoolExit.lean` lets the contexts of a group end one after the other, each returning the handle of the next: one end, with the destruction of any number of empty locals, computed symbolically, the sequence by induction; `Life.lean` puts creation, suspension and end of any number of contexts in any order together; a switch, including the move of the handle received into the set, is atomic there, as it is under the lock a program needs for a set shared by threads)
* C96: `exchange` permutes the threads of a state; every function of the four machines commutes with it, by cases; histories by induction (thread numbers only grow)
* C97: both calls are computed symbolically from the invariant of the state (the target is suspended in the call its stack says); the results are compared field by field. The converse example for ucontext fibers not started is a concrete history
* C98: `rename` exchanges two names in values, storage, call stacks and function objects; every function of the machines commutes with it (new objects get names beyond both), by cases; histories by induction; for objects on the heap, which by the ownership invariant do not occur in call stacks, `swap` and a move into an empty object are exactly this exchange
* C99: by the ownership invariant (C01) the two handles designate different suspended contexts, so that the closed forms of the two calls update disjoint parts of the state; new objects do not occur in old call stacks; what was recorded before does not influence any operation (every function of the machine commutes with it, by cases), hence with C98 the futures agree
  from any reachable state (`*/Loop.lean`).
* C94: invariant over executions about what is known (ordered before): whoever runs, holds or keeps a context knows every use of it; each step uses contexts it runs, holds, keeps or makes only. The argument is made once (`Sync/Gen`) for a view of a state (running contexts, objects, contexts being released) and applied to the four implementations.
* C50-C52: structural recursion.

Beside each theorem an `example` shows a concrete history/state meeting its hypotheses.

## 4. Not modelled

* Data races on a handle object (the library requires external synchronisation of a handle object). In the handle-level models each switch is one atomic step; C82 shows for the routines
  of the ports of C81 that this loses nothing under sequentially consistent memory. C94 shows that the uses of a context by several threads are ordered by happens-before, so that on
  hardware that is sequentially consistent for programs without data races this suffices; weak memory itself is not modelled.
* Contents of floating point computations, unwind tables, handlers of the EH runtime that are left by an exception (their end is an operation of its own in C93;
  the WinFiber implementations throw and catch at the same places as the ucontext ones), the inside of the split stack and sanitizer runtimes.
* Liveness of user code (a fiber that loops for ever).
* What `_exit` does. The stub `finish` of PowerPC 64 Darwin, where context functions are not entered in the first place (C79).
* Exceptions thrown by user move constructors except where C13 says so; `fiber` objects moved by `std::thread` etc. are moves.

## 5. Assembler ports

Modelled: x86_64 SysV ELF (with/without FP control words and the TLS stack protector), ARM64 ELF, RISC-V 64, LoongArch64, i386 SysV ELF, ARM ELF
(with/without VFP), MIPS32 o32, MIPS64 n64 (hard/soft float), s390x, PowerPC 32 ELF (Linux and other), PowerPC 64 ELFv2, SPARC64.
Mach-O: x86_64, ARM64, ARM, i386. Windows PE: x86_64 (gas, MASM and clang sources; the fields of the thread information block are modelled as special registers, accessed through a base register that must hold its address), ARM64 (armclang, armasm), ARM, i386 (gas, MASM and clang sources; C67: the loop of `make_fcontext` over the chain of exception handlers is executed for `N` rounds, for every `N`). x86_64 SysV ELF with CET shadow stacks (C66): the base machine extended by a shadow stack pointer, shadow stack memory and
`rdssp`/`rstorssp`/`saveprevssp`/`incssp`/`call`/`ret` with faults (`Asm/X86_64CetSem`, after the Intel manual; access rights of shadow stack pages are not modelled); the
routines' effect on registers and ordinary memory is proved on the erased instruction lists and lifted. PowerPC 64 with function descriptors (ELFv1 and AIX, C76), PowerPC 32 AIX (C77), PowerPC 32 Mach-O (C78) and
PowerPC 64 Mach-O (C79). With these every assembler port in `src/asm` is modelled (the remaining files only include others).

## 6. Defects and surprises found (all theorems unless marked "reading")

1. x86_64 `make_fcontext` with `BOOST_CONTEXT_TLS_STACK_PROTECTOR` stores the guard at `0x8(%rsp)` instead of `0x8(%rax)`
   (`C30_x86_64_guard_defect`, `C30_x86_64_guard_violates`).
2. ucontext/winfib: the on-top function of a never-started fiber is not run before the fiber function (C23).
3. ucontext/winfib: destroying a never-started fiber runs its function; use after free and the assertion in `~fiber` are reachable (C22_violation, C24).
4. ucontext: an on-top function that throws stays installed and runs again; never executed if the target is being unwound (C25).
5. ucontext: `force_unwind` stays set during unwinding, so `resume()` in cleanup code throws `forced_unwind` again (C26).
6. `continuation::resume_with` with an lvalue function object stores `tuple<Fn>` and reads it as `tuple<Fn&>` (C21_lvalue_function_ub).
7. `protected_fixedsize_stack` size arithmetic wraps near `SIZE_MAX` (C43); `create_fiber` size underflows for too small stacks (C41).
8. shadow stack size: `ss_size = (ss_size > 4096) ? size : 4096` (C46).
9. SPARC64 `make_fcontext` masks with `-0xf`, leaving bit 0 (C39_sparc64_misaligned).
10. MIPS64 n64 `jump_fcontext` does not save `$gp` (C36); PowerPC 64 does not save f14-f31 (C57).
11. i386/s390x `ontop_fcontext` on a context fresh from `make_fcontext` corrupts the entry arguments (the library never does that: C19).
12. fcontext: swallowing `forced_unwind` loses the destroyer's context; ownership cycles leak (C03, C08 hypotheses).
13. `pooled_fixedsize_stack`: the pool itself is not synchronised between threads (C45).
14. `default_size` may exceed `maximum_size` (C44); `prefetch_range` may diverge near the end of the address space (C53);
    `detail::exchange` with an aliasing argument (C52).
15. ucontext `create_fiber1/2`: on `getcontext` failure `deallocate` is called on a possibly moved-from allocator; if the record held the last reference the storage is deleted before (C89).
16. ucontext: destroying a handle of a thread's main context loses it silently, fcontext terminates (C27_restrictions_needed).
17. ucontext: after swallowing `forced_unwind`, `force_unwind` stays set; a later resume throws again (C56 example).
18. x86_64 with `BOOST_CONTEXT_SHADOW_STACK`: `make_fcontext` pops the address of `jmp trampoline` into `0x38(%rax)`, the slot of `rbp` that holds `finish`, instead of `0x40(%rax)`, the slot of the return address. Consequences: an on-top call as first activation (which only a direct user of the routines can do: C19) makes the on-top function's `ret` fault (C66_cet_first_ontop_faults); a context function that returns is started again instead of reaching `finish` (C66_cet_return_restarts).
19. ARM Mach-O `make_fcontext` leaves the SjLj slot uninitialised and enters the function with sp = 4 mod 16 (C60).
20. x86_64 PE `ontop_fcontext` passes the on-top function the result object as its parameter (C62_x86_64_pe_ontop_alias).
21. ARM64 PE `ontop_fcontext` ends with `add sp, sp, #0xc0` although the frame has 0xd0 bytes (C63_arm64_pe_ontop_low, _return, _violated).
22. ARM PE `ontop_fcontext` overwrites a1, which holds its own context, and restores the TIB fields in the wrong order (C64_arm_pe_ontop_wrong, _violated); d8-d15 are not
    saved (C64_arm_pe_fprs_violated); `jump_fcontext` names a register `a5` (reading; modelled as a scratch register).
23. `resume_with()` copies the function object a second time on top of the target, before the pointer to the caller is put into a handle (`fiber_fcontext.hpp` 110, `continuation_fcontext.hpp` 111): if that copy throws, the caller is suspended for ever and its stack leaks (C03_copyThrow_loses, C12_copy_throws). With ucontext the function object is bound after `current() = this` (`fiber_ucontext.hpp` 179-212): if that throws, the handle has lost its fiber and `current()` designates a record whose context is not running (C86_throw); the next switch saves the caller over that fiber (C86_next_resume), which is lost for ever (C86_throw_loses), and the wrong handle it leaves behind unwinds main or terminates (C86_main_unwound, C86_finished_unreachable). `fiber_winfib.hpp` and `continuation_*` have the same order of statements; there `SwitchToFiber` saves by executing fiber, not by record (not modelled).
24. i386 Mach-O `make_fcontext` reserves 0x34 bytes below a 16-byte boundary, so that the context function is entered with `esp + 4` = 8 mod 16; the platform demands 0 (C61_entry_misaligned).
25. `continuation::resume()`/`resume_with()` on ucontext and Windows fibers do not assert that the object is not empty; the call, and the return of an empty object from a
context function, is a member call on a null pointer (C71_undefined_iff, C71_empty_resume_ub). `fiber` asserts (C56).
26. ucontext with ASAN: `activation_record::resume()` tests `terminated` of the context switched to, not of the one that is left (`fiber_ucontext.hpp` 152, `continuation_ucontext.hpp` 131), so the fake
    stack of a finished context is never destroyed (C73_never_destroyed, C73_leak).
27. ucontext with TSAN: if `getcontext` fails in `create_fiber1/2`, `record->~capture_t()` calls `__tsan_destroy_fiber( nullptr)` (C74_create_fails).
28. winfib: the result of `CreateFiber` is not tested (C75_create_unchecked); the destructor of a thread's record converts the thread back even if it was a fiber before the library was used
    (C75_conversion_undone).
29. PowerPC 64 ELFv1 and AIX: in a first activation by `ontop_fcontext` (only direct users: C19) the on-top function runs with r1 = 8 mod 16 and its result object covers the link register save word 16(r1), so a
    non-leaf function returns to the address `data` (C76_ppc64v1_first_ontop_misaligned, _lost); f14-f31 are not saved (C76_ppc64v1_fprs_violated).
30. PowerPC 32 AIX: r13 is callee-saved but not saved (C77_ppc32_xcoff_r13_violated); a first activation by `ontop_fcontext` (only direct users: C19) goes on at the word of the condition register, which
    `make_fcontext` never wrote (C77_ppc32_xcoff_first_ontop_back_wrong, _garbage), and the on-top function's result object covers its caller's link register save word (C77_ppc32_xcoff_first_ontop_lost).
    `make_fcontext` uses the 64 bit store `std` in a 32 bit port (reading; modelled as the store of 8 bytes).
31. PowerPC 32 Mach-O: the context function is entered with r1 = 4 mod 16 (C78_ppc32_macho_misaligned).
32. PowerPC 64 Mach-O: on-top calls and new contexts cannot work: C79_ppc64_macho_ontop_violated, _ontop_result, _ontop_argument, _make_violated (`clrrwi` clears the upper half of the stack address),
    _make_entry_wrong (`stw` stores half of the function's address), _make_argument; f14-f31 are not saved (C79_ppc64_macho_fprs_violated).
33. CMake: any unrecognised 64-bit processor (`ppc64le`, `sparc64`, ...) gets the x86_64 sources (C84_cmake_other); `-m32` on x86_64 gets the 64-bit sources (C84_cmake_m32);
    `power`, 32-bit programs on aarch64 and mips64 kernels, ARM64 MinGW and `combined` on ARM Macs name files that do not exist (C84_cmake_missing);
    `tail_ontop_ppc32_sysv.cpp` is never compiled (C84_cmake_tail).
34. b2: clang for ARM64 Windows lists `*_armclang.asm`, the files are `*.S` (C84_jam_missing); Embarcadero for 64-bit Windows uses the System V sources although the ABI is `ms`
    (C84_jam_deviating).
35. PowerPC 32 AIX: `make_fcontext` does not initialise the FPSCR slot; a new context starts with whatever was on its stack (C65_ppc32_xcoff_uninitialised, _violated).
36. ucontext and winfib: the handle of a finished fiber tests as empty (`operator bool` looks at `terminated`) but `operator<` and `operator<<` treat it as non-empty (C90_ucontext_finished);
    with fcontext it is empty in every respect.
37. MIPS n64: `finish` restores gp from `$sp - 24`, which is below the stack pointer after the context function has returned, i.e. in its dead frame; a function that used those bytes makes the
    stub load the address of `_exit` through a wrong gp and jump anywhere (C92_mips64_violated). o32 keeps gp above the argument area and is safe (C92_mips32).
38. PowerPC 64 ELFv2: `finish` calls `_exit` through r2 without setting it; ELFv2 leaves r2 to the caller, so a context function of another module may return with another r2
    (C92_ppc64_other_module).
39. `std::uncaught_exceptions()` in a fiber that is destroyed while an exception leaves the destroying context counts that exception too (C93_uncaught and the example after it); likewise
    `std::current_exception()` in destructors of such a fiber sees the handlers of the context that destroys it (example `hNested`). Code that compares the count with one taken before a switch
    (scope guards) is affected.
