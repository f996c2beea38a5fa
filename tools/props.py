# generates properties.jsonl
import json
P=[]
def p(id,title,statement,quant,why,*anchors):
    P.append(dict(id=id,title=title,statement=statement,quantifier=quant,why_tests_cant=why,anchors=list(anchors)))
FF="include/boost/context/fiber_fcontext.hpp"; CF="include/boost/context/continuation_fcontext.hpp"
FU="include/boost/context/fiber_ucontext.hpp"; CU="include/boost/context/continuation_ucontext.hpp"
FW="include/boost/context/fiber_winfib.hpp"
HIST="all finite histories of API calls (construct, move, swap, destroy, resume, resume_with, return, throw, catch, nested calls) by any number of fibers on any number of threads, in any interleaving"
p("C01","Exclusive ownership of a suspended context","At every moment no two live fiber objects designate the same suspended execution context: a fiber is move-only not only in its type but in effect, whatever is moved, swapped, resumed, returned, thrown or destroyed.",HIST,"A test sees a handful of histories; aliasing would need one particular history among infinitely many.",FF+": fiber, fiber::swap, fiber::resume, fiber::resume_with, ~fiber",FF+": fiber_ontop, fiber_record::run")
p("C02","No dangling handle","Every non-empty fiber object designates a context that is suspended right now (not running on any thread, not terminated) and whose stack has not been released; so resuming or destroying through it never jumps into a running, finished or freed context.",HIST,"A stale jump corrupts memory only on rare histories and may pass silently.",FF+": fiber::resume, ~fiber, fiber_entry, fiber_exit")
p("C03","No lost context","Every suspended context can still be reached: some live fiber object designates it, or it is waiting inside a fiber destructor for the context being unwound; the only ways to lose one are to swallow the library's forced_unwind exception, which the documentation forbids, and a function object passed to resume_with() whose copy constructor throws while it is copied on top of the target (then the caller of resume_with() is lost for ever).",HIST,"A leak is the absence of an event in every continuation of a history.",FF+": fiber_unwind, fiber_entry, fiber_record::run", "doc/fiber.qbk: forced unwinding")
p("C04","One-shot handles","resume() and resume_with() leave the fiber object they are called on empty before control leaves the caller, and a moved-from fiber object is empty; no later observer, in any context or thread, can see it non-empty unless it is assigned again.",HIST,"Requires every observer in every interleaving.",FF+": fiber::resume 324-333, fiber::resume_with 335-347, fiber(fiber&&) 309")
p("C05","What resume() returns","When a call of resume() returns normally, the returned fiber designates the context that performed the switch back, and is empty exactly when control came back because that context terminated (or because an on-top function returned an empty fiber).",HIST,"Holds for each of unboundedly many switches in any order among any number of fibers.",FF+": fiber::resume, fiber_entry 95-103, fiber_exit 74-85","doc/fiber.qbk")
p("C06","The context function runs at most once, first resumed first","The function a fiber is constructed with is not entered by construction, is entered by the first resumption and never again, and its parameter designates the context that performed this first resumption.",HIST,"A second entry would need a particular later history.",FF+": fiber_entry 87-105, create_fiber1 167-208")
p("C07","Stack released exactly once, never while in use","The stack of a fiber is released at most once, only after its context function (if started) has ended and every object living in its frames has been destroyed, and no thread is executing on that stack then or later.",HIST,"Use-after-free and double free depend on history and scheduling.",FF+": fiber_exit 74-85, fiber_record::destroy 128-135, fiber_entry 103")
p("C08","No stack leak","Every fiber ever created and whose stack is not yet released is running on some thread, is reachable from a live handle, is waiting in a destructor, or has terminated with its release in progress; hence when no fiber object is left non-empty and no thread runs a fiber, allocations and releases of stacks balance (provided forced_unwind is never swallowed and no copy of a function passed to resume_with() throws).",HIST,"Needs every history.",FF+": fiber_entry, fiber_exit, ~fiber")
p("C09","Destruction unwinds completely before it returns","When a non-empty fiber is destroyed (or overwritten by move assignment), the destroyed context is unwound frame by frame and its stack is released before the destructor returns to its caller, even if destructors executed during unwinding switch to other fibers or threads.",HIST,"The statement is about all interleavings between start and end of the destructor.",FF+": ~fiber 296-307, fiber_unwind 67-71, fiber_entry 99-103")
p("C10","Destroying a never-started fiber does not run its function","Destroying a fiber that was never resumed does not execute its function, but destroys the function object (with the fibers captured in it) and releases the stack.",HIST,"All histories before and all captured states.",FF+": fiber_entry 95-103, fiber_exit")
p("C11","resume_with runs the function exactly once, on top of the target","The function passed to resume_with() is executed exactly once per call, in the context of the resumed fiber before that context executes anything else; it receives the resuming context and the fiber it returns is what the suspended resume() call of the target (or the entry of the target's function, if not started) receives.",HIST,"Re-execution or deferred execution shows only on particular histories.",FF+": fiber::resume_with 335-347, fiber_ontop 107-119","doc/fiber.qbk: Executing function on top of a fiber")
p("C12","Exceptions from an on-top function surface in the target","An exception leaving a function executed by resume_with() is raised at the point where the target had been suspended, leaving all outer frames of the target intact; if the target was never started the program terminates. The same holds for an exception thrown by copying the function object there; one thrown by constructing it in the caller has no other effect than to propagate in the caller.",HIST,"All stacks and all histories.",FF+": fiber_ontop, fiber_entry 94-101")
p("C13","When the library terminates the program","A history ends in std::terminate exactly when: a user exception leaves a context function; a user exception leaves an on-top function executed on a never-started fiber (or the copy of the function object made there); any exception leaves a destructor body; an exception leaves a thread's main function; or moving the function object into the control block throws during construction. In no other history; in particular no exception ever reaches a context that waits inside a fiber destructor.",HIST,"Absence of termination quantifies over all histories.",FF+": fiber_entry noexcept 88, fiber_exit noexcept 74, fiber_record ctor noexcept 138, ~fiber")
p("C14","Assertion failures only on misuse","The assertions of the library can fail only when an empty fiber is resumed or when a context function returns an empty fiber; every internal assertion always holds.",HIST,"All histories.",FF+": BOOST_ASSERT 91,92,102,104,109,206,325,337")
p("C15","Isolation of suspended stacks","Steps of other contexts never change the call stack of a suspended context: when it is resumed it continues exactly at its suspension point with the frames it had; only the result of resume() is added.",HIST,"All intermediate histories.",FF+": fiber::resume, fiber_ontop")
p("C16","Value semantics of moves and swap","Move construction transfers the context and empties the source; move assignment transfers the context and destroys the previous one of the target first being detached; self-move-assignment and self-swap change nothing; swap exchanges; operator bool, operator!, operator< and operator<< depend only on the designated context, < is a strict weak order in which empty fibers are equivalent.","all fiber values","Algebraic law over all values.",FF+": 309-322, 349-383")
p("C17","A context runs on at most one thread","In any interleaving of threads that exchange fibers, each context is executed by at most one thread at a time, and each thread executes exactly one context.",HIST,"Schedules.",FF+": fiber::resume, ~fiber")
p("C18","Failed construction has no effect","If the stack allocator throws during construction of a fiber, no context exists afterwards, no stack has to be released, the creating context continues with the exception and all other handles are as before; a successful construction returns to the creator with a non-empty handle that designates a suspended never-started context.",HIST,"All states in which construction is attempted.",FF+": create_fiber1 167-208, create_fiber2 210-249")
p("C19","On-top calls are never applied to a raw context","The library never executes an on-top function on a context that make_fcontext has just produced: every context in a handle has first been entered and suspended by the library itself.",HIST,"All histories; the i386 and s390x assembler rely on it.",FF+": create_fiber1 207, fiber_entry 95","src/asm/ontop_i386_sysv_elf_gas.S","src/asm/ontop_s390x_sysv_elf_gas.S")
p("C20","Hand-over at termination","When a context function returns fiber h (or is force-unwound), exactly the context designated by h (the destroyer) continues, its resume() yields an empty fiber, and captured state and stack of the finished fiber are gone before it continues.",HIST,"All histories, nested terminations included.",FF+": fiber_entry 97-103, fiber_exit")
p("C21","callcc is creation followed by resumption","continuation/callcc: callcc(f) behaves as constructing a fiber from f and resuming it at once; every ownership, release, unwinding and on-top property above holds for continuation as well.",HIST,"All histories.",CF+": callcc 371-398, create_context1, context_entry, context_ontop")
p("C22","ucontext/winfib: ownership and release","With the ucontext/winfib implementation, in every history in which no never-started fiber is destroyed: no two objects designate the same context, no object designates a running context or a released stack, no operation uses a released record or switches to a context that is not suspended, a stack is released exactly once, only after the fiber's function ended, never while a thread runs on it or an object designates it, and (unless forced_unwind was swallowed) no fiber becomes unowned. The proviso is needed: a history with a destroyed never-started fiber reaches use after free.",HIST,"All histories.",FU+": fiber_activation_record, fiber_capture_record::run, ~fiber 457-466",FW)
p("C23","ucontext/winfib: on-top function of a never-started fiber","resume_with() on a never-started fiber starts the fiber's function first, in every state; the on-top function is only stored and runs when the fiber is switched to while suspended in resume(), or never. (The documented order, on-top function first, holds for fcontext and is violated here.)",HIST,"A single test per backend could show it but the claim is for all histories.",FU+": resume_with 173-233, fiber_capture_record::run 279-303")
p("C24","ucontext/winfib: destroying a never-started fiber","Destroying a never-started fiber, in whatever way, starts its function; a stack is never released without its fiber's function having been started; if that function switches back to the destroying context the assertion in the destructor fails. (With fcontext the function is not executed.)",HIST,"All histories.",FU+": ~fiber 457-466, run 279-303")
p("C25","ucontext/winfib: how often an on-top function runs","A function passed to resume_with() on a fiber suspended in resume() and not being unwound runs at once on the target's stack; if it neither suspends nor throws it is executed exactly once in every continuation of the history. If it throws it stays stored and runs again on the next switch; if it suspends it may run again; if the target is being unwound it is never executed.",HIST,"All histories.",FU+": resume 139-171, resume_with 173-233, class fiber resume 483-497")
p("C26","ucontext/winfib: switching during unwinding","If code running while a fiber is being force-unwound suspends that fiber, every later resume()/resume_with() of it throws forced_unwind there again instead of returning; this lasts until the fiber has finished. (With fcontext such code continues normally; with ucontext a destructor doing so ends in std::terminate.)",HIST,"All histories.",FU+": ~fiber 457-466, resume 483-497")
p("C27","fcontext and ucontext/WinFiber backends agree","Every program (any number of threads and fibers, any schedule) that keeps to the following rules is executed by the ucontext/WinFiber implementation of fiber with the same outcome as by the fcontext implementation -- same assertion failures and calls of std::terminate, and otherwise the same call stack in every context, the same objects designating the same contexts with the same operator bool, and the same functions started in the same order; only the release of a finished fiber's stack happens at different times. Rules: no never-started fiber is destroyed or used with resume_with(); constructing or copying a function object passed to resume_with() does not throw; no handle of a thread's main context is destroyed; on-top functions neither throw out nor call resume()/resume_with(); code run by the unwinding of a fiber does not call resume()/resume_with(); forced_unwind is not swallowed; context functions own no fibers. Without any one of these rules the implementations differ.","all such histories of all threads","All histories.",FU,FF)
p("C28","Per-thread main context exists whenever needed","For any interleaving of construction and destruction of static initializer objects in a thread, the main activation record exists exactly while at least one is alive, it is created once per 0-to-1 transition and deleted once per 1-to-0 transition.","all sequences of constructions/destructions","All sequences.","src/fiber.cpp: 23-50","src/continuation.cpp: 23-50")
asm=[("C30","x86_64 SysV","x86_64_sysv_elf"),("C31","ARM64 AAPCS","arm64_aapcs_elf"),("C32","RISC-V 64","riscv64_sysv_elf"),("C33","LoongArch64","loongarch64_sysv_elf"),("C34","i386 SysV","i386_sysv_elf"),("C35","ARM32 AAPCS","arm_aapcs_elf"),("C36","MIPS64 n64 / MIPS32 o32","mips64_n64_elf"),("C37","s390x","s390x_sysv_elf"),("C38","PowerPC 32 (ELF, both variants)","ppc32_sysv_elf"),("C39","SPARC64","sparc64_sysv_elf"),("C57","PowerPC 64 ELFv2","ppc64_sysv_elf"),("C58","x86_64 SysV Mach-O","x86_64_sysv_macho"),("C59","ARM64 Mach-O","arm64_aapcs_macho"),("C60","ARM32 Mach-O (iOS)","arm_aapcs_macho"),("C61","i386 SysV, Mach-O","i386_sysv_macho"),("C62","x86_64 Windows PE","x86_64_ms_pe","_gas.asm","_masm.asm","_clang_gas.S"),("C63","ARM64 Windows PE","arm64_aapcs_pe","_armclang.S","_armasm.asm"),("C64","ARM32 Windows PE","arm_aapcs_pe","_armasm.asm")]
EXC={'C61': " ontop_fcontext may additionally overwrite the words of the suspended call's own argument area. Exception: the context function is entered with esp + 4 = 8 mod 16 whatever the stack, not with the 16-byte alignment the platform demands.", 'C30': " Exception: if built with BOOST_CONTEXT_TLS_STACK_PROTECTOR, make_fcontext stores the stack guard into its caller's frame instead of the new context's, so with that option the claim about make_fcontext is false (and refuted); jump and ontop are correct with and without it.", 'C34': " ontop_fcontext may additionally overwrite the words of the suspended call's own argument area.", 'C36': ' The n64 routines do not save $gp (callee-saved in n64): for it the claim is false (and refuted); it is made for all other callee-saved registers.', 'C37': ' The parameter of an on-top function is passed by reference to a copy in the frame of the resuming context, as the ABI prescribes.', 'C38': ' ontop_fcontext enters the C++ helper ontop_fcontext_tail (src/asm/tail_ontop_ppc32_sysv.cpp), which tail-calls the function whose address it gets as an extra argument; the claim is about the entry of that helper.', 'C39': ' The claim covers register windows spilled to the stack for any number of active windows. If the top of the given region is odd, the initial stack pointer is misaligned (proved): make_fcontext masks with -0xf instead of -0x10.', 'C57': ' Only general registers, CR and LR: the routines do not save the callee-saved floating point registers f14-f31, which a suspended context therefore finds overwritten by whatever ran in between (proved, and the claim including them refuted). The on-top function and the context function are entered with their address in r12 as ELFv2 demands.','C60':' The per-thread SjLj exception chain head is saved and restored like a register; for a context fresh from make_fcontext its initial value is whatever memory contained (proved), because make_fcontext does not initialise that slot. The stack is 4-aligned at the first activation as the iOS ABI demands, but not 8-aligned (proved).','C62':' The transfer is passed and returned by reference to 16 bytes, xmm6-xmm15 are saved and, with the registers, the four stack-related fields of the thread information block (stack base, limit, deallocation stack, fiber data) are switched; in a new context they describe exactly the region given to make_fcontext. The parameter of an on-top function is the same object as its result (proved): a function that writes its result before reading its parameter finds the parameter changed. The routines for MASM and for clang consist of the same instructions.','C63':' With the registers the four stack-related fields of the thread environment block are switched; in a new context they describe exactly the region given to make_fcontext. Exception: ontop_fcontext releases 0xc0 of the 0xd0 bytes of the frame, so the on-top function runs, and the suspended context continues after it, with a stack pointer 16 bytes too low: for it the claim is false (proved exactly, and the full claim refuted).','C64':' With the registers stack base, limit and deallocation stack of the thread information block are switched; in a new context they describe the region given to make_fcontext. Exceptions (proved, the full claims refuted): d8-d15, callee-saved on Windows, are not saved; ontop_fcontext passes the stack base of the resumed context instead of the resuming context as fctx, and exchanges stack base and deallocation stack. jump_fcontext uses a register a5 that does not exist in the calling standard; the claim takes it as a scratch register.'}
for i,n,f,*sf in asm:
    p(i,n+": context switch preserves the machine state",f"{n}: jump_fcontext saves the caller so that a later jump back to the returned fcontext_t resumes right after the call with the stack pointer and every callee-saved register of the platform ABI (and FP control words where saved) as before, delivers (fcontext_t of the switching context, data) in the ABI's return location, and writes only inside its own frame below the stack pointer; make_fcontext yields a context whose first activation enters the given function with an ABI-aligned stack inside the given region, the transfer as argument, and the finish stub as return address; ontop_fcontext calls the function on the target's stack such that its result is returned at the target's suspension point."+EXC.get(i,""),"all register contents, memories, stack addresses, data words; any sequence of intermediate switches and writes outside the saved frame","Register contents and addresses are 64-bit words; a clobbered register shows only when the compiler happens to keep a live value there.",*[f"src/asm/{r}_{f}{z}" for z in (sf or ["_gas.S"]) for r in ("jump","make","ontop")])
p("C40","Any number of contexts, any sequence of switches","On x86_64 (SysV and Darwin, without the stack protector option; Windows), i386 (ELF, Darwin, Windows), ARM64 and ARM (ELF and Darwin; Windows without on-top calls, see C63, C64), RISC-V, LoongArch64, MIPS, s390x, PowerPC 32 (ELF, Darwin, AIX), PowerPC 64 (ELFv1, without the floating point registers it does not save) and SPARC64 (there: stack pointer, return address, local and in registers of the suspended activation and of all its callers): if contexts, on any number of threads with common memory, live on pairwise disjoint stacks, call the switching routines on their own stacks and no code writes into the saved frame of a suspended context, then after any sequence of creations, jumps, on-top calls, starts of threads and moves of contexts between threads each context resumes with exactly the callee-saved registers, stack pointer and return address it had when it was suspended, receives the identity and data of the context that resumed it, and finds its stack unchanged except where its own call stored its frame and result or other contexts' own code wrote.","all numbers of contexts and all switch sequences","Unbounded sequences.","src/asm/jump_x86_64_sysv_elf_gas.S")
p("C41","Control block placement","For every stack returned by the allocator and every record size, the record is placed below sp, 256-aligned, entirely inside the stack, not overlapping the 64-byte gap nor the usable stack, and the size passed to make_fcontext is exactly the number of bytes between the bottom and the usable top -- provided the stack is large enough; otherwise the computed size wraps around.","all 64-bit sp, size, record sizes","2^128 combinations.",FF+": create_fiber1 167-184, create_fiber2 210-226")
p("C42","Allocator returns what it got","deallocate(sctx) hands exactly the pointer (and size) obtained in allocate() back to the system, for fixedsize_stack, protected_fixedsize_stack and pooled_fixedsize_stack, for all sizes and addresses; the stack_context describes exactly that region.","all sizes and addresses","2^64 values.","include/boost/context/fixedsize_stack.hpp","include/boost/context/posix/protected_fixedsize_stack.hpp","include/boost/context/pooled_fixedsize_stack.hpp","include/boost/context/windows/protected_fixedsize_stack.hpp")
p("C43","Guard page","protected_fixedsize_stack reserves at least the requested size above one inaccessible page that lies at the low end, whenever the rounded size does not overflow size_t; otherwise the mapping is smaller than requested.","all sizes and page sizes","2^64 values.","include/boost/context/posix/protected_fixedsize_stack.hpp 52-91","include/boost/context/windows/protected_fixedsize_stack.hpp 45-71")
p("C44","Stack traits are consistent","Whatever the operating system answers and however its answers change, all calls of page_size() yield the same value (its first answer), boundedness and maximum_size() never change and agree (maximum_size() asserts exactly if is_unbounded()), and the library's own constants satisfy minimum_size <= default_size; nothing relates default_size to maximum_size: with a stack limit below 128 KiB the default exceeds the maximum.","all sequences of calls, all page sizes and rlimit values","OS answers.","src/posix/stack_traits.cpp 40-87","src/windows/stack_traits.cpp 44-92")
p("C45","Pool storage lives exactly as long as needed","The shared storage of pooled_fixedsize_stack is destroyed exactly once, when the last allocator copy is gone and every stack allocated from it has been deallocated, in any interleaving of copies, destructions, allocations and deallocations by any number of threads.","all interleavings","Schedules.","include/boost/context/pooled_fixedsize_stack.hpp 70-141")
p("C46","Shadow stack","With CET shadow stacks the region unmapped at exit is the one mapped at creation, and its size is sufficient.","all stack sizes","2^64 values.",FF+": 73-85, 186-203")
p("C47","Preallocated stack","A fiber built on a preallocated stack stores the user's stack_context unchanged and later hands exactly it to the user's allocator, while its control block lies below the user's sp.","all sp, sctx","2^128 values",FF+": create_fiber2 210-249","include/boost/context/preallocated.hpp")
p("C48","Record pointer survives makecontext on macOS","Where makecontext() passes only 32-bit integers, the entry function of a fiber receives exactly the address of its control block, for every 64-bit address.","all 2^64 addresses","2^64 values.",FU+": fiber_entry_func 67-81, create_fiber1 339-343, create_fiber2 390-394")
p("C50","head/tail/apply","tuple_head and tuple_tail split a tuple without loss or reordering and apply(f, t) calls f with exactly the elements of t in order, for tuples of any length.","all tuples of all lengths","Unbounded lengths.","include/boost/context/detail/tuple.hpp 26-120","include/boost/context/detail/apply.hpp 35-62")
p("C51","invoke","invoke(f, args...) calls a member function pointer with the object bound and any other callable directly, with the given arguments, and returns its result.","all callables","All callables.","include/boost/context/detail/invoke.hpp 20-37")
p("C52","exchange","exchange(t, v) leaves v in t and returns the previous content.","all values","All values.","include/boost/context/detail/exchange.hpp 23-28")
p("C53","prefetch_range covers the range","prefetch_range touches only addresses below base+len at a stride of 256 bytes from its base; it terminates and touches all of them, each once, in order, whenever the range and one stride beyond it lie within the address space; if base+len wraps it touches nothing; if the range ends too close to the end of the address space it does not terminate.","all address widths, addresses and lengths","2^128 values.","include/boost/context/detail/prefetch.hpp")
p("C54","Library code never gets stuck","Whenever a thread is not in user code (it is leaving a scope, unwinding, or releasing a finished fiber) the library and the language runtime can always continue; there is no reachable state in which control is lost.",HIST,"All reachable states.",FF+": fiber_exit, fiber_entry, ~fiber")
p("C55","Destruction and unwinding terminate","Leaving scopes, forced unwinding, destruction of captured fibers and release of stacks always come to an end after finitely many steps, however deeply fibers own each other, unless user destructors themselves loop.",HIST,"Unbounded ownership depth.",FF+": ~fiber 296-307, fiber_exit 74-85, fiber_record::destroy 128-135")
p("C56","ucontext/winfib: terminations, assertion failures, progress","With the ucontext/winfib implementation, in every history in which no never-started fiber was destroyed: the program is terminated exactly when moving the function into the record throws, an exception leaves a thread's main function or a destructor, or a user exception leaves a context function; an assertion fails exactly when an empty object or one designating a finished fiber is resumed, or control is handed to such an object at the end of a context function; and whenever a thread is not in user code the library and the language runtime can continue, unless one of these happens.",HIST,"Absence of failure quantifies over all histories.",FU+": fiber_entry_func noexcept 69-81, run 279-303, BOOST_ASSERT 302, 462, 484, 501")
CU="include/boost/context/continuation_ucontext.hpp"; CW="include/boost/context/continuation_winfib.hpp"
p("C68","ucontext/winfib: callcc and continuation hand-off","With the ucontext/winfib implementation of continuation: callcc(f) creates a context and enters f at once on its stack, with a continuation that designates the caller; the handle callcc uses internally is empty from then on until callcc is left and designates nothing; callcc returns (or throws) what the switch back delivers; a switch to a context suspended in resume(), resume_with() or callcc() delivers there exactly one new object, which designates the context that was left; an on-top function receives that object on the target's stack and what it returns is what the target receives; destroying a suspended context throws forced_unwind there. Every operation has exactly the effect of the corresponding operations of fiber on the same backend (construction followed by resumption for callcc).",HIST,"All histories.",CU+": callcc 519-549, resume 430-443, resume_with 451-466, activation_record::resume 120-149, run 254-278",CW)
p("C69","ucontext/winfib: ownership of continuation objects","With the ucontext/winfib implementation of continuation, in every history: no two objects designate the same context, no object designates a running context or a released stack, operator bool is true exactly for objects that designate a suspended context, and a context runs on at most one thread.",HIST,"All histories.",CU+": class continuation 370-503")
p("C70","ucontext/winfib: release of continuation stacks","With the ucontext/winfib implementation of continuation, in every history: a stack is released at most once, only by a context other than its own and after its function has ended, and nothing designates, runs or resumes it afterwards; unless forced_unwind is swallowed, a context whose stack is not released and that does not run is still designated by an object or being destroyed, and when no object designates anything every context that was created has been released or runs.",HIST,"All histories.",CU+": ~continuation 400-409, deallocate 249-252, destroy 233-240")
p("C71","ucontext/winfib: failures of continuation","With the ucontext/winfib implementation of continuation, in every history: behaviour is undefined exactly when resume() or resume_with() is called on an empty object or a context function returns one (there is no assertion, unlike fiber); an assertion fails exactly when a finished context is resumed; the program is terminated exactly when moving the function into the record throws, an exception leaves a thread's main function or a destructor, or a user exception leaves a context function; otherwise a thread that runs can always make a step.",HIST,"All histories.",CU+": resume 430-443, resume_with 451-466, run 254-278, entry_func 66-77")
p("C65","New contexts inherit the creator's floating point control words","On x86_64 (ELF, Mach-O, Windows) and i386 (ELF, Mach-O, Windows), without BOOST_USE_TSX, a context function starts with the MXCSR and x87 control word its creator had when it called make_fcontext (on i386 with the stack protector option also with its stack guard word), not those of the context that resumes it first; with BOOST_USE_TSX no switching routine changes these control words at all, so they pass from the resuming context. Likewise the FPSCR on PowerPC 32 (Linux, BSD, Darwin) and the FPC on s390x are inherited from the creator. On 32-bit AIX they are not: the context starts with an FPSCR read from stack bytes make_fcontext never wrote.","all machine states of creator and first resumer, all stacks","2^1000 machine states.","src/asm/make_x86_64_sysv_elf_gas.S","src/asm/make_i386_sysv_elf_gas.S","src/asm/make_x86_64_sysv_macho_gas.S","src/asm/make_i386_sysv_macho_gas.S","src/asm/make_x86_64_ms_pe_gas.asm","src/asm/make_s390x_sysv_elf_gas.S","src/asm/make_ppc32_sysv_elf_gas.S","src/asm/make_ppc32_sysv_macho_gas.S","src/asm/make_ppc32_sysv_xcoff_gas.S")
p("C66","x86_64 with shadow stacks (Intel CET)","Built with BOOST_CONTEXT_SHADOW_STACK on a CPU that checks return addresses against a shadow stack: resuming a suspended context by jump_fcontext or ontop_fcontext never faults as long as its saved frame and the token word on its shadow stack are intact, keeps the contract of C30, leaves the shadow stack pointer where a return from (or call on top of) the suspended call needs it so that later returns do not fault, and writes only the word below the top of each of the two shadow stacks; make_fcontext likewise, and the first switch enters the context function with equal return addresses on both stacks. Switching to anything without a valid token faults; in particular a context that has been resumed cannot be resumed through the same fcontext_t a second time. Exceptions (proved): if the first activation of a context is an on-top call, the on-top function's return faults; a context function that returns is started again instead of ending the process.","all register contents, memories, shadow stack contents and addresses","Needs CET hardware; 2^1000 machine states.","src/asm/jump_x86_64_sysv_elf_gas.S","src/asm/ontop_x86_64_sysv_elf_gas.S","src/asm/make_x86_64_sysv_elf_gas.S 95-133, 138-147")
p("C67","Context switch on i386 Windows","jump_fcontext, ontop_fcontext and make_fcontext keep the contract of C30 on i386 Windows (argument passing on the stack, callee-saved registers, control words unless BOOST_USE_TSX, stack alignment), and with every switch exchange the fields of the thread information block that describe the stack (base, limit, deallocation stack, fiber data) and the head of the chain of structured exception handlers. When the function of a new context is entered, the block describes the stack given to make_fcontext and the chain consists of one record on the new stack whose handler is that of the last record of the chain of make_fcontext's caller. make_fcontext ends after as many rounds as that chain has records, and never if the chain has no end. The three source variants (MinGW, clang, MASM) consist of the same instructions.","all register contents, memories, stack tops and sizes, and all lengths of the chain of exception handlers","The handler chain is unbounded; the machine states are too many to enumerate.","src/asm/jump_i386_ms_pe_gas.asm","src/asm/ontop_i386_ms_pe_gas.asm","src/asm/make_i386_ms_pe_gas.asm","src/asm/*_i386_ms_pe_clang_gas.S","src/asm/*_i386_ms_pe_masm.asm")
p("C72","ucontext: split stacks","Built with BOOST_USE_SEGMENTED_STACKS (fiber and continuation on ucontext), in every history in which no never-started fiber was destroyed: while a thread executes a context, the split stack context installed for that thread is the one the context's own code installed last (or was given at creation), however often it was suspended and on whatever threads it and others ran in between; when its record is destroyed, exactly that split stack context is released, at most once and not while the context can run.",HIST,"All histories, all contents of the split stack context.",FU+": 146-150, 214-218",CU+": 125-129, 188-192","include/boost/context/posix/segmented_stack.hpp 57-75")
p("C73","ucontext: AddressSanitizer annotations","Built with BOOST_USE_ASAN (fiber and continuation on ucontext), in every history in which no never-started fiber was destroyed: the start/finish calls are properly paired on every thread (the runtime never aborts), while a thread executes a context the runtime has the bounds of that context's stack and the fake stack created for that context's code. Defect: the fake stack of a finished context is never destroyed, it leaks with the record.",HIST,"All histories, all stack bounds.",FU+": 151-157, 161-165, 219-221, 225-229, 280-284, 350-353",CU+": 130-136, 139-143, 193-195, 198-202, 255-259")
p("C74","ucontext: ThreadSanitizer annotations","Built with BOOST_USE_TSAN (fiber on ucontext), in every history in which no never-started fiber was destroyed: while a thread executes a context the runtime's current fiber object is that context's; every switch is announced with an object that exists and that no thread uses; with a record exactly its object is destroyed, once, and not while a thread uses it; the objects of threads are never destroyed and a null pointer is never passed. Defect: if getcontext fails in a creation, a null pointer is passed to __tsan_destroy_fiber.",HIST,"All histories.",FU+": 99-102, 115-131, 158-160, 222-224, 354-356, 405-407")
p("C75","winfib: resources of the operating system","With Windows fibers (fiber and continuation), in every history in which no never-started fiber was destroyed and every CreateFiber succeeded: a thread that executes a context executes that context's operating system fiber, which exists, is not deleted and is executed by no other thread; SwitchToFiber gets only fibers that exist and that no thread executes; DeleteFiber gets each fiber at most once, never that of a thread and never one a thread executes; ConvertFiberToThread is called only by a thread that is a fiber. Defects: a failed CreateFiber is not noticed and the first switch passes a null pointer to SwitchToFiber; a thread that was a fiber before is none any more after its record is deleted.",HIST,"All histories.",FW+": 65-179, 193-205, 243-276",CW,"src/fiber.cpp 23-50")
p("C76","Context switch on PowerPC 64 with function descriptors","On PowerPC 64 with function descriptors (Linux ELFv1 and AIX): jump_fcontext, ontop_fcontext and make_fcontext keep the contract of C30 for the general registers, the condition register and the TOC pointer; a context function and an on-top function are entered at the first word of their descriptor with its second word as TOC pointer; on-top calls write only their own frame. If a new context is activated for the first time by ontop_fcontext, the on-top function gets the right argument, and after it has returned the context function is entered with the transfer_t it returned. Exceptions: f14-f31 are not preserved; in such a first activation the stack pointer is 8 modulo 16 and the result object overlaps the word in which the ABI lets a function save its return address, so a function that keeps its return address there and writes its result returns to the address data instead.","all register contents, memories and stack addresses","2^64 values per register.","src/asm/jump_ppc64_sysv_elf_gas.S","src/asm/ontop_ppc64_sysv_elf_gas.S","src/asm/make_ppc64_sysv_elf_gas.S","src/asm/jump_ppc64_sysv_xcoff_gas.S","src/asm/ontop_ppc64_sysv_xcoff_gas.S","src/asm/make_ppc64_sysv_xcoff_gas.S")
p("C77","Context switch on PowerPC 32, AIX","On 32-bit AIX: jump_fcontext, ontop_fcontext and make_fcontext keep the contract of C30 for r14-r31, the condition register, f14-f31 with their control word and the TOC pointer; a context function and an on-top function are entered at the first word of their descriptor with its second word as TOC pointer; on-top calls write only their own frame. Exceptions: r13, callee-saved by the AIX ABI, is lost by switching; if a new context is activated for the first time by ontop_fcontext, the on-top function gets the right argument, but after it has returned control goes to an address make_fcontext never wrote instead of the context function.",
 "all register and memory contents at suspension and resumption, all stacks, functions and data","An address is lost or misread only for particular register and stack contents; CI has no AIX machine","src/asm/jump_ppc32_sysv_xcoff_gas.S:jump_fcontext","src/asm/ontop_ppc32_sysv_xcoff_gas.S:ontop_fcontext","src/asm/make_ppc32_sysv_xcoff_gas.S:make_fcontext")
p("C78","Context switch on PowerPC 32, Mach-O","On 32-bit PowerPC Darwin: jump_fcontext and make_fcontext keep the contract of C30, and ontop_fcontext enters ontop_fcontext_tail with the on-top function as fourth argument, in place of the suspended call. Exceptions: the context function is entered with a stack pointer of 4 modulo 16, where the ABI demands 0; a first activation by ontop_fcontext ends the program when the on-top function returns.",
 "all register and memory contents at suspension and resumption, all stacks, functions and data","Misalignment shows only in code that relies on it; CI has no such machine","src/asm/jump_ppc32_sysv_macho_gas.S:jump_fcontext","src/asm/ontop_ppc32_sysv_macho_gas.S:ontop_fcontext","src/asm/make_ppc32_sysv_macho_gas.S:make_fcontext","src/asm/tail_ontop_ppc32_sysv.cpp:ontop_fcontext_tail")
p("C79","Context switch on PowerPC 64, Mach-O","On 64-bit PowerPC Darwin: a context suspended by jump_fcontext or ontop_fcontext is resumed by jump_fcontext as C30 says, for r14-r31 and the condition register. Exceptions: f14-f31 are lost; ontop_fcontext enters the on-top function with the resuming call's result object and with the address of the suspended call's result object in place of the context argument, with the stack pointer, callee-saved registers and return address of the suspended call and the transfer_t in that call's result object; make_fcontext returns to its caller with the callee-saved registers unchanged but drops the upper half of the stack address, and the first switch to the new context goes to an address whose upper half is the lower half of the context function's address, with the address of the transfer_t in place of its first member.",
 "all register and memory contents at suspension and resumption, all stacks, functions and data","The port cannot be run by CI; only addresses above 4 GiB show the truncation","src/asm/jump_ppc64_sysv_macho_gas.S:jump_fcontext","src/asm/ontop_ppc64_sysv_macho_gas.S:ontop_fcontext","src/asm/make_ppc64_sysv_macho_gas.S:make_fcontext")
p("C80","fiber and continuation on the machine: handles are addresses of suspended calls","On the ports of C40 except SPARC64: every operation of fiber and continuation (fcontext implementation) is a sequence of calls of make_fcontext, jump_fcontext and ontop_fcontext (resume() one jump, resume_with() and the destructor an on-top call, construction make and two jumps, callcc() make and three jumps). On a machine whose threads make the calls of any history of library operations, with the addresses the routines delivered, the preconditions of the routines hold at every call, contexts run and are suspended exactly as the handle-level models (C01-C21) say, and resume() returns, possibly on another thread, into the call that gave up the handle that is resumed: with the stack pointer, callee-saved registers, return address and stack contents of that call, and with the address of the handle given up for the context that resumed it; handles of different suspended contexts have different addresses, so operator< tells them apart.","all histories of library operations on all threads, all machine states, all code between the calls that respects saved frames","Connects unbounded histories with all machine states; no test sees both.",FF+": create_fiber1 167-208, resume 324-333, resume_with 335-347, ~fiber 296-307, fiber_exit 73-85, fiber_entry 87-105","src/asm/jump_x86_64_sysv_elf_gas.S","src/asm/ontop_x86_64_sysv_elf_gas.S","src/asm/make_x86_64_sysv_elf_gas.S",CF+": callcc 371-398, create_context1 170-211, resume, resume_with, ~continuation")
p("C81","The switching routines touch nothing but the stacks involved","On the ports of C40 except SPARC64: jump_fcontext and ontop_fcontext called to resume a suspended context read only the caller's own frame (with its stack arguments and return address), the suspended call's frame and its result object, and write only the caller's own frame, that result object and, on-top, the suspended call's argument area; the first switch to a new context, with the stub it runs through, reads the caller's frame and the data make_fcontext wrote, and writes only the caller's frame and that data; make_fcontext reads and writes only the area between the new context and the given end of the stack, its own scratch words and return address, and reads its stack arguments; where functions are given by descriptors (PowerPC 64 ELFv1, AIX), the descriptors of the given functions are read too, and on i386 Windows make_fcontext reads the records of its caller's chain of exception handlers.",
 "all register and memory contents, all stacks, functions and data; every byte read or written","A stray read or write is visible to tests only when something else lives at that address","src/asm: jump_fcontext, ontop_fcontext, make_fcontext of the ports named","include/boost/context/detail/fcontext.hpp")
p("C82","Switches of several threads may overlap instruction by instruction","On the ports of C81: in every execution in which threads execute make_fcontext, jump_fcontext and ontop_fcontext instruction by instruction, interleaved in any order with each other's calls and with user code that respects other contexts' stacks, the calls have the effect of atomic ones: every state reached is, apart from calls in progress, a state reached with calls as single steps; a call in progress is as far as if it were executed alone; no call writes a byte another one accesses; and the round trips of C40 (resumption, on-top call, first activation, with handles, data, callee-saved registers, stack contents) hold with overlapping calls.",
 "all numbers of contexts and threads, all interleavings of single instructions, all user code between the calls","A race between two switches would need a particular interleaving at a particular instruction","src/asm: jump_fcontext, ontop_fcontext, make_fcontext of the ports named","include/boost/context/detail/fcontext.hpp")
p("C83","The stack a new fiber starts on","On the ports of C40 except SPARC64, for every stack (from an allocator or preallocated) with room for the control block, 319 bytes of gap and alignment, the port's context data and 64 bytes: what constructing a fiber or continuation and switching to it for the first time write into the new stack lies below the 64-byte gap under the control block and in the last bytes there, so that neither the control block nor the part of a stack the user has reserved is touched; the function is entered with a stack pointer that leaves all of the stack but sizeof(record) + 383 + the size of the context data bytes below it; and what the calling convention lets the function use above that stack pointer (return address, argument slots, linkage or register save area, 12 to 176 bytes on the ports that have it) ends below the control block.",
 "all stack addresses, sizes and record sizes, all register and memory contents, all functions","An overlap of a few bytes is visible only for particular alignments of the stack or when a compiler uses the caller's save area",FF+": create_fiber1, create_fiber2",CF+": create_context1, create_context2","src/asm: make_fcontext, jump_fcontext of the ports named")
p("C84","The build selects the assembler code of the target machine","With CMake, for every value of the documented options the three routines are taken from sources of one and the same port; with no option set, for every processor name that starts with arm or mips or is aarch64, x86_64, AMD64, amd64, i386-i686, x86, riscv64, loongarch64 or s390x (with the pointer size that goes with it) and ELF, Mach-O or Windows (Microsoft or GNU) targets, it is the port of that machine, and the files exist. With b2, for every build request at most one alternative of asm_sources matches, so that the build is never ambiguous, and it lists make, jump and ontop of the port for the requested instruction set, address model, ABI, binary format and tools, which exist. Universal sources select one port for all three routines whatever macros are defined. (Exceptions, stated as such: other processors get x86_64 code from CMake, 32-bit programs on x86_64, aarch64, mips64 kernels the wrong or no files, power, combined on ARM Macs and ARM64 MinGW no files, PowerPC 32 lacks its C++ part; b2 with clang for ARM64 Windows lists missing files, with Embarcadero for 64-bit Windows the System V sources.)",
 "all processor names (arbitrary strings), pointer sizes, platforms and options; all build requests; all sets of predefined macros","CI builds a handful of platforms; the others are selected by string matching nobody runs","CMakeLists.txt: lines 13-166","build/Jamfile.v2: asm_sources","src/asm/make_combined_sysv_macho_gas.S")
p("C85","Stacks are registered with Valgrind exactly while they are in use","Built with BOOST_USE_VALGRIND, for fixedsize_stack (malloc or mmap), pooled_fixedsize_stack and the POSIX protected_fixedsize_stack, whatever several threads allocate and deallocate concurrently: every registration is exactly the range [sp-size, sp) of an outstanding stack under the id kept in its stack_context; each id is withdrawn once and only while registered; at no moment is memory registered that the allocator has already given back or not yet received; registered ranges do not overlap; when all stacks are deallocated, none is registered. The Windows protected_fixedsize_stack never registers.","all histories of allocate() and deallocate() by any number of threads, all sizes, addresses and ids","A stale registration needs a particular interleaving and address reuse to show","include/boost/context/fixedsize_stack.hpp 65-67, 74-76","include/boost/context/posix/protected_fixedsize_stack.hpp 75-77, 84-86","include/boost/context/pooled_fixedsize_stack.hpp 96-98, 106-108","include/boost/context/stack_context.hpp 34-36")
p("C86","ucontext: the thread's current record, and resume_with() with a throwing function object","Fiber on ucontext: as long as no function object given to resume_with() throws when copied (and no never-started fiber was destroyed), in every history each thread's current activation record is that of the context it executes and every suspended context is saved in its own record. Defect: if the copy throws, the exception reaches the caller, but the handle has lost its fiber and the thread's current record is that fiber's; when the caller next switches, its own context is saved over the fiber's, the context resumed gets a handle of that fiber instead of the caller's, and the fiber is never continued and its stack never released, whatever the program does afterwards; destroying the wrong handle unwinds the caller (terminate in main), and a fiber that returns after such an exception can never be released.",HIST+", including copies that throw","Needs a function object whose copy constructor throws between two particular switches; the damage shows up later elsewhere",FU+": current 103-106, resume 139-171, resume_with 173-233, run 279-303, class fiber 457-516")
p("C87","ucontext: signal masks","On ucontext the signal mask belongs to the context: in every history, while a thread executes a context the thread's mask is the one that context's own code installed last, or, if it installed none, the one it began with; a fiber begins with the mask its creator had when it created it, whichever thread first resumes it; the context of callcc() begins with the mask of the caller, so entering it does not change the thread's mask.",HIST,"A test sees one history on a few threads; the claim covers every placement of creations, switches, thread starts and mask changes.",FU+": swapcontext 160, 222; getcontext 322, 373",CU+": swapcontext 138, 197; getcontext 297, 340","doc/rationale.qbk: 59")
p("C88","fcontext and ucontext/WinFiber implementations of continuation agree","Every program (any number of threads and contexts, any schedule) that uses callcc() and continuation and keeps to the following rules is executed by the ucontext/WinFiber implementation with the same outcome as by the fcontext implementation -- same assertion failures (except that using an empty object, which asserts with fcontext, may be undefined behaviour with the other one) and calls of std::terminate, and otherwise the same call stack in every context including the activations of callcc(), the same objects designating the same contexts, and the same functions started in the same order; only the release of a finished context's stack happens at different times. Rules: function objects passed to resume_with() are rvalues whose construction does not throw; no handle of a thread's main context is destroyed; on-top functions neither throw out nor call resume(), resume_with() or callcc(); code run by the unwinding of a context does not call them either; forced_unwind is not swallowed; functions passed to callcc() own no continuations. Without any one of these rules the implementations differ.","all such histories of all threads","All histories.",CU,CF)
p("C89","Contexts keep the storage of their allocator alive","A context keeps (in its control record) the stack allocator it was created with; when it is destroyed the allocator is moved out of the record, the record destroyed and the stack given back through it. In any interleaving of copies, moves and destructions of allocator objects, creations (with an lvalue or rvalue allocator, on a stack allocated by the library or by the user) and destructions of contexts: no null or dangling storage is used, each stack is given back once, to the storage it came from; the storage shared by the copies of an allocator is alive exactly as long as user code has an allocator object for it or one of its stacks is outstanding, and is then deleted, once. If getcontext() fails, a creation with an lvalue allocator leaves everything as it was. With an rvalue allocator that failure is undefined: the stack is deallocated through the moved-from allocator (and possibly after its storage is gone).",
  "every history of any number of threads, allocators and contexts; every phase of creation and destruction","life times of interleaved objects: tests sample a few histories, and cannot make getcontext() fail",
  "include/boost/context/fiber_fcontext.hpp: fiber_record, create_fiber1, create_fiber2","include/boost/context/fiber_ucontext.hpp: fiber_capture_record, create_fiber1, create_fiber2","include/boost/context/continuation_ucontext.hpp: capture_record, create_context1, create_context2","include/boost/context/fiber_winfib.hpp: destroy","include/boost/context/pooled_fixedsize_stack.hpp: storage")
p("C90","Handles compare, test and print consistently","fiber and continuation objects of every implementation: operator bool is true exactly for objects that hold a context and operator! for the others; two distinct objects that hold contexts are never equivalent under operator<, exactly one is less than the other; an empty object is less than every object that holds a context, two empty ones are equivalent; operator< is transitive; operator<< prints an object that holds a context as a pointer that no other object prints, an empty one as {not-a-context}; and as long as two objects keep what they hold, neither their order nor what they print changes, whatever other contexts and threads do. With ucontext and WinFiber the handle of a context that has finished is an exception: it tests as empty, but is ordered and printed like a non-empty one.",
  "every history on every number of threads; on the fcontext implementation every machine that makes the calls of the history, on every port of C80, with stacks that do not contain address 0","ordering and distinctness depend on addresses and on all other handles alive; a test sees a few addresses",FF+": operator bool 349, operator! 353, operator< 357, operator<< 363",CF+": 344-364",FU+": 518-542",FW+": 378-402",CW+": 379-403")
p("C91","continuation on ucontext/winfib: how often an on-top function runs; switching during unwinding","A function passed to continuation::resume_with() on a continuation suspended in resume() or in callcc(), and not being unwound, runs at once on the target's stack; if it neither suspends nor throws it is executed exactly once in every continuation of the history. If it throws it stays stored and runs again on the next switch; if it suspends it may run again; if the target is being unwound it is never executed. If code running while a continuation is being force-unwound suspends that continuation, in resume() or in callcc(), every later resume()/resume_with() of it throws forced_unwind there again instead of returning; this lasts until the continuation has finished.",HIST,"All histories.",CU+": resume 139-149, resume_with 151-208, class continuation resume 430-443, resume_with 451-466, callcc 519-549",CW+": record 65-179")
p("C92","A context function that returns ends the process","If the function given to make_fcontext returns (as its calling convention demands), control is at the stub whose address make_fcontext has stored as return address, and the stub enters _exit with parameter 0, with a stack pointer that is aligned as the ABI demands at the entry of a function, and without writing outside the few bytes of stack it may use. Exceptions: on MIPS n64 the stub takes gp from 24 bytes below the stack pointer, inside the frame of the function that returned, which may have overwritten it, so that control can go anywhere; on PowerPC 64 ELFv2 _exit, in another module, is reached through r2, which a function of a third module need not have left as it was; with shadow stacks the function starts again (C66); with the stack protector option on x86_64 the new context must not overlap the word make_fcontext overwrites in its caller's frame (C30); on PowerPC 64 Darwin the function of a new context is not entered (C79).",
  "all register and memory contents, all stacks, all functions, all states they may return in","a test sees one function with one frame layout; whether a stub works may depend on what the function left in its dead frame or registers","src/asm: make_fcontext, label finish, of all ports but ppc64 Mach-O")
p("C93","Exceptions and context switches","The C++ runtime keeps active handlers and exceptions in flight per thread, and the library does not exchange that state when it switches. If no context is left (by resume(), resume_with(), its end or the destructor of a fiber) from inside one of its catch blocks, then in every history the handlers in the thread's state are exactly the active handlers of the context it executes, so that throw; throws again the exception handled by that context; jumping from inside a catch block may make it throw another context's exception. If contexts are left by resume() and resume_with() only without active handler and exception in flight - the destructor may be executed anywhere, also in handlers and while an exception is leaving the context -, then the thread's state is that of the context executed on top of those of the contexts that wait in the destructor of a fiber for it to be unwound (which are uniquely determined); std::uncaught_exceptions() is the sum of their exceptions in flight, for a context that is not being unwound its own; a destructor that unwinds a fiber comes back on the same thread and leaves the thread's state as it found it. The same holds with continuation and callcc(), on fcontext and on ucontext, and of the fiber on ucontext in histories that destroy no fiber that was never started (see C24).",
  "every history of any number of threads and fibers in which the rule is obeyed, every nesting of handlers, unwindings and destructors","the state is shared by all contexts of a thread; a test sees a few nestings",FF+": fiber_unwind 67-71, fiber_entry 87-105, ~fiber 296-307",CF+": context_unwind 67-71, context_entry 87-105, ~continuation 285-296, callcc 371-398",FU+": resume 483-497, resume_with 499-516, ~fiber 457-466, forced_unwind 244-250, fiber_capture_record::run 279-303",CU+": resume, resume_with 430-466, ~continuation 400-409, run 254-278, callcc 535-550","doc/fiber.qbk: 139","doc/callcc.qbk: 152")
p("C94","Handing over a context between threads is free of data races","The library has no atomic operation, lock or fence. Order the steps of an execution by: the steps of one thread, the start of a thread before its steps, two writes (assignment, move, construction, destruction) of the same fiber object of the program - which the program has to synchronise as for any object -, transitively. Then any two steps that use one context (execute code on its stack, switch from or to it, start, unwind or release it) are ordered, on whatever threads they happen; the release of the stack comes after every other use of the context. The order is partial, and without the synchronisation of the fiber objects the claim is false. The same holds of continuation, and of both classes implemented with ucontext, where the uses of a context include every access to its activation record (for the ucontext fiber: in executions that destroy no fiber that was never started, see C24).",
  "every execution of any number of threads and fibers, any two steps","a data race depends on the schedule and on the memory model of the machine; a test on strongly ordered hardware sees none",FF+": resume 324-334, resume_with 336-348, ~fiber 296-307, operator= 313-319, fiber_exit 73-85",CF+": resume, resume_with, ~continuation, callcc",FU+": fiber_activation_record 84-237, class fiber 411-553",CU+": activation_record 79-212, class continuation 370-503")
p("C95","Switching does not consume stack","In every reachable state the stack of a context holds, besides its activations of user code and the releases of finished contexts under way on it, at most one activation of the library for each of these, plus one. Two contexts that resume each other in a loop (x = std::move(x).resume() on one side, y = std::move(y).resume() on the other) can do so any number of times: every round goes through, and after n rounds all stacks, the contexts that run and wait and all objects of the program are as before, x again designating the other context; nothing was allocated, released or entered. A context that holds any number of such contexts may resume them one after the other in any order, with any repetitions, with the same result: every object designates what it did. Contexts may also resume each other directly, sharing a set of handles: whoever is in control takes any handle of the set and the context resumed puts the handle it receives in its place; after any sequence of such choices one context of the group runs, the others wait, each with the stack it had, and the set designates exactly those that wait; likewise if the handle is put in place by a function that resume_with() runs on top of the context resumed, which then has run exactly once per switch; and likewise if several threads run contexts of the group and take handles from the set, in any interleaving of their switches, contexts moving between threads. For every n a program can have n contexts that do this. Finally the contexts of the group may end, in any order, each returning a handle of the set from its function: the context designated continues where it waited, the stack of the one that ended is given back exactly once, and those that have not ended wait as before. For every n and every order of n contexts there is a program that creates them, lets each start and suspend, lets them and their creator resume each other in any sequence, and lets them end in this order, after which the context that started them runs where it waited and every stack has been given back once, in this order. The same holds of continuation and of both classes on ucontext.",
  "every reachable state and context; every number of rounds, every two contexts, every finite sequence of choices of a scheduler or of contexts that resume each other, every number of contexts, whatever their stacks and whatever else exists","a leak of stack per switch would show only after as many rounds as fit the stack",FF+": resume 324-334, operator= 313-319",CF+": resume, operator=",FU+": resume 482-497, operator= 475-481",CU+": resume, operator=")
p("C96","Contexts have no affinity to threads","A context can be continued by any thread. If, in any reachable state, two threads exchange the contexts they execute, then every operation and every further history, executed with the two threads exchanged, has the same outcome - rejected, failed assertion, termination, or the same call stacks, objects, values, statuses and events -, with the two threads exchanged: nothing a program can observe through the API depends on which thread executes a context. The same holds of fiber and continuation on fcontext and on ucontext.",
  "every reachable state, every two threads, every operation and history of all threads","migration at every point of every history; a test migrates at a few",FF+": class fiber 253-384",CF+": class continuation 256-369, callcc 371-398",FU+": current 103-106, resume 139-171, resume_with 173-233",CU+": activation_record 79-212","doc/overview.qbk: 25")
p("C97","resume_with() of a function that returns its argument is resume()","In every reachable state, for every handle of a context suspended in resume() or callcc() (on the fcontext implementation also for one that is not started yet): the calls std::move(x).resume() and std::move(x).resume_with([](auto && c){ return std::move(c); }) have the same effect - the same contexts run, are suspended or finished, with the same call stacks, values, control blocks and statuses -, except for the name of the object the resumed context receives (which refers to the same context), the objects of the on-top function, which are all empty and destroyed, and the execution of the function itself. On ucontext this holds if the context is not being unwound and no function object is left behind in it (C86, C91); it does not hold there for a fiber that is not started (C23).",
  "every reachable state, every calling context and every target, whatever else exists","a test compares the two calls in a few histories",FF+": fiber_ontop 107-119, resume 324-334, resume_with 336-348",CF+": context_ontop 107-121, resume 314-323, resume_with 330-342",FU+": resume 139-171, resume_with 173-233",CU+": activation_record::resume, resume_with 79-212")
p("C98","It does not matter which object holds a context","If two objects exchange their parts - the contexts they hold and the places where they live -, every operation and every further history of all threads, with the two names exchanged, has the same outcome: rejected, failed assertion, termination, or the same call stacks, control blocks, statuses and events, with the two names exchanged. In particular after swap(x, y) of two objects on the heap, and after y = std::move(x) if y was empty, every program that uses y where it would have used x and x where it would have used y has the same outcome. (On ucontext the last two as long as no fiber was destroyed before it started, C24.)",
  "every reachable state, every two objects, every operation and history of all threads","for all pairs of objects and all further histories; a test moves a few handles",FF+": move constructor 309-311, operator= 313-319, swap 381-383",FU+": move constructor, operator= 475-481, swap",CF+": move constructor, operator=, swap",CU+": move constructor, operator=, swap")
p("C99","No program can find out which of two threads switched first","In every reachable state in which two threads are about to call resume() on different handles (fiber or continuation), both orders of the two calls succeed and lead to the same state - the same contexts run on the same threads, with the same call stacks, values, storage and statuses - up to the names of the two objects that the resumed contexts receive (or that callcc() returns) and the order in which the two starts are recorded; and every further history of all threads has the same outcome for both orders, with the two names exchanged. On ucontext the handles have to designate suspended (not finished) contexts and, for fiber, no fiber was destroyed before it started (C24).",
  "every reachable state, every two threads, handles and targets, every further history","all schedules of two concurrent switches and everything that may follow; a test sees one order",FF+": resume 324-334, fiber_entry 87-105",FU+": resume 139-171, 483-497",CF+": resume 314-323",CU+": resume 430-443")
open('/verif/properties.jsonl','w').write("".join(json.dumps(x)+"\n" for x in P))
print(len(P))
