{
 "claims": [
  {
   "property": "C01",
   "status": "proved",
   "theorems": [
    "Verif.Fiber.C01_exclusive"
   ],
   "note": ""
  },
  {
   "property": "C02",
   "status": "proved",
   "theorems": [
    "Verif.Fiber.C02_no_dangling",
    "Verif.Fiber.C02_no_ub",
    "Verif.Fiber.C02_run_no_ub"
   ],
   "note": ""
  },
  {
   "property": "C03",
   "status": "proved",
   "theorems": [
    "Verif.Fiber.C03_no_lost_context",
    "Verif.Fiber.C03_swallow_loses",
    "Verif.Fiber.C03_copyThrow_loses"
   ],
   "note": "hypothesis: forced_unwind never swallowed (the documented requirement); a history that swallows it is shown to lose a context"
  },
  {
   "property": "C04",
   "status": "proved",
   "theorems": [
    "Verif.Fiber.C04_consumed",
    "Verif.Fiber.C04_stays_empty"
   ],
   "note": ""
  },
  {
   "property": "C05",
   "status": "proved",
   "theorems": [
    "Verif.Fiber.C05_resumed_gets_resumer",
    "Verif.Fiber.C05_exited_gets_empty",
    "Verif.Fiber.C05_ontop_result",
    "Verif.Fiber.C05_returns"
   ],
   "note": ""
  },
  {
   "property": "C06",
   "status": "proved",
   "theorems": [
    "Verif.Fiber.C06_at_most_once",
    "Verif.Fiber.C06_not_by_construction",
    "Verif.Fiber.C06_first_resume",
    "Verif.Fiber.C06_only_if_not_started"
   ],
   "note": ""
  },
  {
   "property": "C07",
   "status": "proved",
   "theorems": [
    "Verif.Fiber.C07_released_once",
    "Verif.Fiber.C07_after_release",
    "Verif.Fiber.C07_at_release",
    "Verif.Fiber.C07_released_was_created"
   ],
   "note": ""
  },
  {
   "property": "C08",
   "status": "proved",
   "theorems": [
    "Verif.Fiber.C08_created_cases",
    "Verif.Fiber.C08_balance",
    "Verif.Fiber.C08_no_leak"
   ],
   "note": ""
  },
  {
   "property": "C09",
   "status": "proved",
   "theorems": [
    "Verif.Fiber.C09_release_before_return",
    "Verif.Fiber.C09_destroy",
    "Verif.Fiber.C09_dtor_waits"
   ],
   "note": ""
  },
  {
   "property": "C10",
   "status": "proved",
   "theorems": [
    "Verif.Fiber.C10_never_runs",
    "Verif.Fiber.C10_release_steps"
   ],
   "note": ""
  },
  {
   "property": "C11",
   "status": "proved",
   "theorems": [
    "Verif.Fiber.C11_on_top",
    "Verif.Fiber.C11_exactly_once",
    "Verif.Fiber.C11_before_anything_else",
    "Verif.Fiber.C11_result_to_entry"
   ],
   "note": ""
  },
  {
   "property": "C12",
   "status": "proved",
   "theorems": [
    "Verif.Fiber.C12_surfaces_in_target",
    "Verif.Fiber.C12_not_started_terminates",
    "Verif.Fiber.C12_construct_throws",
    "Verif.Fiber.C12_copy_throws",
    "Verif.Fiber.C12_copy_throws_not_started",
    "Verif.Fiber.C12_cases"
   ],
   "note": ""
  },
  {
   "property": "C13",
   "status": "proved",
   "theorems": [
    "Verif.Fiber.C13_terminate_iff"
   ],
   "note": ""
  },
  {
   "property": "C14",
   "status": "proved",
   "theorems": [
    "Verif.Fiber.C14_assertion_iff"
   ],
   "note": ""
  },
  {
   "property": "C15",
   "status": "proved",
   "theorems": [
    "Verif.Fiber.C15_isolation"
   ],
   "note": ""
  },
  {
   "property": "C16",
   "status": "proved",
   "theorems": [
    "Verif.Fiber.C16_move_construct",
    "Verif.Fiber.C16_move_assign_empty",
    "Verif.Fiber.C16_move_assign_full",
    "Verif.Fiber.C16_self_move",
    "Verif.Fiber.C16_swap",
    "Verif.Fiber.C16_observers"
   ],
   "note": ""
  },
  {
   "property": "C17",
   "status": "proved",
   "theorems": [
    "Verif.Fiber.C17_one_thread",
    "Verif.Fiber.C17_running_not_resumable"
   ],
   "note": ""
  },
  {
   "property": "C18",
   "status": "proved",
   "theorems": [
    "Verif.Fiber.C18_alloc_throws",
    "Verif.Fiber.C18_create"
   ],
   "note": ""
  },
  {
   "property": "C19",
   "status": "proved",
   "theorems": [
    "Verif.Fiber.C19_no_raw_context"
   ],
   "note": ""
  },
  {
   "property": "C20",
   "status": "proved",
   "theorems": [
    "Verif.Fiber.C20_hand_over",
    "Verif.Fiber.C20_hand_over_unwound",
    "Verif.Fiber.C20_released_first"
   ],
   "note": ""
  },
  {
   "property": "C21",
   "status": "proved",
   "theorems": [
    "Verif.Cont.C21_step_refines",
    "Verif.Cont.C21_callcc_refines",
    "Verif.Cont.C21_history_refines",
    "Verif.Cont.C21_callcc",
    "Verif.Cont.C21_temporary_empty",
    "Verif.Cont.C21_callcc_returns",
    "Verif.Cont.C21_callcc_throws",
    "Verif.Cont.C21_exclusive",
    "Verif.Cont.C21_no_dangling",
    "Verif.Cont.C21_no_ub",
    "Verif.Cont.C21_lvalue_function_ub",
    "Verif.Cont.C21_no_lost_context",
    "Verif.Cont.C21_entered_once",
    "Verif.Cont.C21_released_once",
    "Verif.Cont.C21_after_release",
    "Verif.Cont.C21_at_release",
    "Verif.Cont.C21_no_leak",
    "Verif.Cont.C21_release_before_return",
    "Verif.Cont.C21_on_top_once",
    "Verif.Cont.C21_one_thread",
    "Verif.Cont.C21_resumed_gets_resumer",
    "Verif.Cont.C21_callcc_gets_resumer",
    "Verif.Cont.C21_destroy_unwinds",
    "Verif.Cont.C21_on_top",
    "Verif.Cont.C21_assertion_only"
   ],
   "note": "forward simulation by the fiber machine; C21_lvalue_function_ub shows the one place where continuation differs (type confusion for lvalue callables)"
  },
  {
   "property": "C22",
   "status": "proved",
   "theorems": [
    "Verif.UFiber.C22_exclusive",
    "Verif.UFiber.C22_no_dangling",
    "Verif.UFiber.C22_bool",
    "Verif.UFiber.C22_no_ub",
    "Verif.UFiber.C22_run_no_ub",
    "Verif.UFiber.C22_released_once",
    "Verif.UFiber.C22_released_was_created",
    "Verif.UFiber.C22_after_release",
    "Verif.UFiber.C22_at_release",
    "Verif.UFiber.C22_one_thread",
    "Verif.UFiber.C22_no_lost_fiber",
    "Verif.UFiber.C22_balance",
    "Verif.UFiber.C22_violation",
    "Verif.UFiber.C22_first_resume",
    "Verif.UFiber.C22_resume_returns"
   ],
   "note": "under the proviso of the property; C22_violation shows it is needed"
  },
  {
   "property": "C23",
   "status": "proved",
   "theorems": [
    "Verif.UFiber.C23_function_first",
    "Verif.UFiber.C23_violation",
    "Verif.UFiber.C23_fcontext_order"
   ],
   "note": "states what the code does; C23_violation refutes the documented order, C23_fcontext_order shows it for fcontext"
  },
  {
   "property": "C24",
   "status": "proved",
   "theorems": [
    "Verif.UFiber.C24_destroy_starts",
    "Verif.UFiber.C24_every_destruction",
    "Verif.UFiber.C24_released_was_started",
    "Verif.UFiber.C24_fcontext_not_started",
    "Verif.UFiber.C24_resume_asserts"
   ],
   "note": "states what the code does; differs from fcontext (C24_fcontext_not_started)"
  },
  {
   "property": "C25",
   "status": "proved",
   "theorems": [
    "Verif.UFiber.C25_pending_runs",
    "Verif.UFiber.C25_at_once",
    "Verif.UFiber.C25_never_again",
    "Verif.UFiber.C25_return_clears",
    "Verif.UFiber.C25_exactly_once",
    "Verif.UFiber.C25_throw_keeps",
    "Verif.UFiber.C25_violation_throw",
    "Verif.UFiber.C25_violation_suspend",
    "Verif.UFiber.C25_fcontext_suspend",
    "Verif.UFiber.C25_unwound_never"
   ],
   "note": "states what the code does; C25_violation_* refute 'exactly once' in general"
  },
  {
   "property": "C26",
   "status": "proved",
   "theorems": [
    "Verif.UFiber.C26_resume_throws",
    "Verif.UFiber.C26_resume_with_throws",
    "Verif.UFiber.C26_sticky",
    "Verif.UFiber.C26_violation"
   ],
   "note": "states what the code does; C26_violation: a destructor that resumes during unwinding ends in std::terminate"
  },
  {
   "property": "C27",
   "status": "proved",
   "theorems": [
    "Verif.Backends.C27_backends_agree",
    "Verif.Backends.C27_restrictions_needed"
   ],
   "note": ""
  },
  {
   "property": "C28",
   "status": "proved",
   "theorems": [
    "Verif.Schwarz.C28_exists",
    "Verif.Schwarz.C28_once",
    "Verif.Schwarz.C28_transitions",
    "Verif.Schwarz.C28_last"
   ],
   "note": ""
  },
  {
   "property": "C30",
   "status": "proved",
   "theorems": [
    "Verif.Asm.X86_64.C30_x86_64_jump",
    "Verif.Asm.X86_64.C30_x86_64_ontop",
    "Verif.Asm.X86_64.C30_x86_64_make",
    "Verif.Asm.X86_64.C30_x86_64_guard_defect",
    "Verif.Asm.X86_64.C30_x86_64_guard_violates",
    "Verif.Asm.X86_64.C30_x86_64_make_any"
   ],
   "note": "with the TLS stack protector option the make claim is refuted (C30_x86_64_guard_violates)"
  },
  {
   "property": "C31",
   "status": "proved",
   "theorems": [
    "Verif.Asm.Arm64.C31_arm64_jump",
    "Verif.Asm.Arm64.C31_arm64_ontop",
    "Verif.Asm.Arm64.C31_arm64_make"
   ],
   "note": ""
  },
  {
   "property": "C32",
   "status": "proved",
   "theorems": [
    "Verif.Asm.RiscV64.C32_riscv64_jump",
    "Verif.Asm.RiscV64.C32_riscv64_ontop",
    "Verif.Asm.RiscV64.C32_riscv64_make"
   ],
   "note": ""
  },
  {
   "property": "C33",
   "status": "proved",
   "theorems": [
    "Verif.Asm.LoongArch64.C33_loongarch64_jump",
    "Verif.Asm.LoongArch64.C33_loongarch64_ontop",
    "Verif.Asm.LoongArch64.C33_loongarch64_make"
   ],
   "note": ""
  },
  {
   "property": "C34",
   "status": "proved",
   "theorems": [
    "Verif.Asm.I386.C34_i386_jump",
    "Verif.Asm.I386.C34_i386_ontop",
    "Verif.Asm.I386.C34_i386_make"
   ],
   "note": ""
  },
  {
   "property": "C35",
   "status": "proved",
   "theorems": [
    "Verif.Asm.Arm32.C35_arm_jump",
    "Verif.Asm.Arm32.C35_arm_ontop",
    "Verif.Asm.Arm32.C35_arm_make"
   ],
   "note": ""
  },
  {
   "property": "C36",
   "status": "proved",
   "theorems": [
    "Verif.Asm.Mips32.C36_mips32_jump",
    "Verif.Asm.Mips32.C36_mips32_ontop",
    "Verif.Asm.Mips32.C36_mips32_make",
    "Verif.Asm.Mips64.C36_mips64_jump",
    "Verif.Asm.Mips64.C36_mips64_ontop",
    "Verif.Asm.Mips64.C36_mips64_make",
    "Verif.Asm.Mips64.C36_mips64_gp_not_saved"
   ],
   "note": "$gp of n64 excluded: refuted by C36_mips64_gp_not_saved"
  },
  {
   "property": "C37",
   "status": "proved",
   "theorems": [
    "Verif.Asm.S390x.C37_s390x_jump",
    "Verif.Asm.S390x.C37_s390x_ontop",
    "Verif.Asm.S390x.C37_s390x_make"
   ],
   "note": ""
  },
  {
   "property": "C38",
   "status": "proved",
   "theorems": [
    "Verif.Asm.Ppc32.C38_ppc32_jump",
    "Verif.Asm.Ppc32.C38_ppc32_ontop",
    "Verif.Asm.Ppc32.C38_ppc32_ontop_fn",
    "Verif.Asm.Ppc32.C38_ppc32_make",
    "Verif.Asm.Ppc32b.C38_ppc32b_jump",
    "Verif.Asm.Ppc32b.C38_ppc32b_ontop",
    "Verif.Asm.Ppc32b.C38_ppc32b_ontop_fn",
    "Verif.Asm.Ppc32b.C38_ppc32b_make"
   ],
   "note": "ontop: up to the entry of ontop_fcontext_tail, with fn passed on (C38_*_ontop_fn)"
  },
  {
   "property": "C39",
   "status": "proved",
   "theorems": [
    "Verif.Asm.Sparc64.C39_sparc64_jump",
    "Verif.Asm.Sparc64.C39_sparc64_ontop",
    "Verif.Asm.Sparc64.C39_sparc64_make",
    "Verif.Asm.Sparc64.C39_sparc64_enter",
    "Verif.Asm.Sparc64.C39_sparc64_aligned",
    "Verif.Asm.Sparc64.C39_sparc64_misaligned"
   ],
   "note": "own machine with register windows; stated with the register window chain instead of the generic Port specification"
  },
  {
   "property": "C57",
   "status": "proved",
   "theorems": [
    "Verif.Asm.C57_ppc64_many",
    "Verif.Asm.Ppc64.C57_ppc64_jump",
    "Verif.Asm.Ppc64.C57_ppc64_ontop",
    "Verif.Asm.Ppc64.C57_ppc64_make",
    "Verif.Asm.Ppc64.C57_ppc64_ontop_r12",
    "Verif.Asm.Ppc64.C57_ppc64_enter_r12",
    "Verif.Asm.Ppc64.C57_ppc64_loses_fprs",
    "Verif.Asm.Ppc64.C57_ppc64_fprs_violated"
   ],
   "note": "callee-saved FPRs excluded: the claim including them is refuted (C57_ppc64_fprs_violated)"
  },
  {
   "property": "C58",
   "status": "proved",
   "theorems": [
    "Verif.Asm.X86_64Macho.C58_x86_64_macho_jump",
    "Verif.Asm.X86_64Macho.C58_x86_64_macho_ontop",
    "Verif.Asm.X86_64Macho.C58_x86_64_macho_make"
   ],
   "note": ""
  },
  {
   "property": "C59",
   "status": "proved",
   "theorems": [
    "Verif.Asm.Arm64Macho.C59_arm64_macho_jump",
    "Verif.Asm.Arm64Macho.C59_arm64_macho_ontop",
    "Verif.Asm.Arm64Macho.C59_arm64_macho_make"
   ],
   "note": "the routines are proved equal to the ELF ones instruction by instruction (port_eq)"
  },
  {
   "property": "C60",
   "status": "proved",
   "theorems": [
    "Verif.Asm.ArmMacho.C60_arm_macho_jump",
    "Verif.Asm.ArmMacho.C60_arm_macho_ontop",
    "Verif.Asm.ArmMacho.C60_arm_macho_make",
    "Verif.Asm.ArmMacho.C60_arm_macho_not_aapcs",
    "Verif.Asm.ArmMacho.C60_arm_macho_sjlj_uninitialised"
   ],
   "note": "first activation: SjLj chain head uninitialised (C60_arm_macho_sjlj_uninitialised), sp is 4 mod 16 (C60_arm_macho_not_aapcs)"
  },
  {
   "property": "C61",
   "status": "proved",
   "theorems": [
    "Verif.Asm.I386Macho.C61_i386_macho_jump",
    "Verif.Asm.I386Macho.C61_i386_macho_ontop",
    "Verif.Asm.I386Macho.C61_i386_macho_make",
    "Verif.Asm.I386Macho.C61_entry_misaligned"
   ],
   "note": ""
  },
  {
   "property": "C62",
   "status": "proved",
   "theorems": [
    "Verif.Asm.X86_64Pe.C62_x86_64_pe_jump",
    "Verif.Asm.X86_64Pe.C62_x86_64_pe_ontop",
    "Verif.Asm.X86_64Pe.C62_x86_64_pe_make",
    "Verif.Asm.X86_64Pe.C62_x86_64_pe_first_activation",
    "Verif.Asm.X86_64Pe.C62_x86_64_pe_shadow_space",
    "Verif.Asm.X86_64Pe.C62_x86_64_pe_movaps_aligned",
    "Verif.Asm.X86_64Pe.C62_x86_64_pe_ontop_alias",
    "Verif.Asm.X86_64Pe.C62_x86_64_pe_same"
   ],
   "note": "gas/MASM/clang sources are the same instruction lists (C62_x86_64_pe_same); on-top parameter aliases result object (C62_x86_64_pe_ontop_alias)"
  },
  {
   "property": "C63",
   "status": "proved",
   "theorems": [
    "Verif.Asm.Arm64Pe.C63_arm64_pe_jump",
    "Verif.Asm.Arm64Pe.C63_arm64_pe_make",
    "Verif.Asm.Arm64Pe.C63_arm64_pe_ontop_low",
    "Verif.Asm.Arm64Pe.C63_arm64_pe_ontop_return",
    "Verif.Asm.Arm64Pe.C63_arm64_pe_ontop_violated",
    "Verif.Asm.Arm64Pe.C63_arm64_pe_first_activation",
    "Verif.Asm.Arm64Pe.C63_arm64_pe_same"
   ],
   "note": "ontop_fcontext leaves sp 16 bytes low: C63_arm64_pe_ontop_low/_return state exactly what holds, C63_arm64_pe_ontop_violated refutes the rest; armasm and armclang sources are the same instructions"
  },
  {
   "property": "C64",
   "status": "proved",
   "theorems": [
    "Verif.Asm.ArmPe.C64_arm_pe_jump",
    "Verif.Asm.ArmPe.C64_arm_pe_make",
    "Verif.Asm.ArmPe.C64_arm_pe_first_activation",
    "Verif.Asm.ArmPe.C64_arm_pe_ontop_wrong",
    "Verif.Asm.ArmPe.C64_arm_pe_loses_fprs",
    "Verif.Asm.ArmPe.C64_arm_pe_ontop_violated",
    "Verif.Asm.ArmPe.C64_arm_pe_fprs_violated"
   ],
   "note": "ontop_fcontext is wrong: C64_arm_pe_ontop_wrong states exactly what it does, C64_arm_pe_ontop_violated refutes the spec; d8-d15 not saved (C64_arm_pe_loses_fprs, _fprs_violated)"
  },
  {
   "property": "C40",
   "status": "proved",
   "theorems": [
    "Verif.Asm.Many.C40_of_calls",
    "Verif.Asm.Many.C40_of_specs",
    "Verif.Asm.C40_x86_64_macho",
    "Verif.Asm.C40_i386_macho",
    "Verif.Asm.C40_arm64_macho",
    "Verif.Asm.C40_arm_macho",
    "Verif.Asm.C40_x86_64_pe",
    "Verif.Asm.C40_ppc64v1",
    "Verif.Asm.C40_ppc32_xcoff",
    "Verif.Asm.C40_ppc32_macho",
    "Verif.Asm.C40_x86_64",
    "Verif.Asm.C40_i386",
    "Verif.Asm.C40_arm64",
    "Verif.Asm.C40_riscv64",
    "Verif.Asm.C40_loongarch64",
    "Verif.Asm.C40_arm",
    "Verif.Asm.C40_mips64",
    "Verif.Asm.C40_mips32",
    "Verif.Asm.C40_s390x",
    "Verif.Asm.C40_ppc32",
    "Verif.Asm.C40_ppc32b",
    "Verif.Asm.Sparc64.Many.C40_sparc64_resume",
    "Verif.Asm.Sparc64.Many.C40_sparc64_ontop",
    "Verif.Asm.Sparc64.Many.C40_sparc64_start",
    "Verif.Asm.C40_i386_pe",
    "Verif.Asm.C40_arm64_pe",
    "Verif.Asm.C40_arm_pe"
   ],
   "note": ""
  },
  {
   "property": "C41",
   "status": "proved",
   "theorems": [
    "Verif.Mem.C41_placement",
    "Verif.Mem.C41_ucontext_same",
    "Verif.Mem.C41_too_small",
    "Verif.Mem.C41_top_aligned"
   ],
   "note": ""
  },
  {
   "property": "C42",
   "status": "proved",
   "theorems": [
    "Verif.Mem.C42_fault_iff",
    "Verif.Mem.C42_exact",
    "Verif.Mem.C42_describes",
    "Verif.Mem.C42_disjoint",
    "Verif.Mem.C42_all_returned",
    "Verif.Mem.C42_size"
   ],
   "note": ""
  },
  {
   "property": "C43",
   "status": "proved",
   "theorems": [
    "Verif.Mem.C43_size",
    "Verif.Mem.C43_overflow",
    "Verif.Mem.C43_overflow_zero",
    "Verif.Mem.C43_guard_page",
    "Verif.Mem.C43_record_accessible",
    "Verif.Mem.C43_no_guard"
   ],
   "note": ""
  },
  {
   "property": "C44",
   "status": "proved",
   "theorems": [
    "Verif.Mem.Traits.C44_page_constant",
    "Verif.Mem.Traits.C44_page_first",
    "Verif.Mem.Traits.C44_limit_constant",
    "Verif.Mem.Traits.C44_sizes",
    "Verif.Mem.Traits.C44_minimum_default",
    "Verif.Mem.Traits.C44_default_exceeds_maximum"
   ],
   "note": ""
  },
  {
   "property": "C45",
   "status": "proved",
   "theorems": [
    "Verif.Mem.Pool.C45_alive",
    "Verif.Mem.Pool.C45_once",
    "Verif.Mem.Pool.C45_count",
    "Verif.Mem.Pool.C45_unsynchronised"
   ],
   "note": ""
  },
  {
   "property": "C46",
   "status": "proved",
   "theorems": [
    "Verif.Mem.C46_roundtrip",
    "Verif.Mem.C46_pointer",
    "Verif.Mem.C46_sufficient",
    "Verif.Mem.C46_multiple",
    "Verif.Mem.C46_oversized"
   ],
   "note": ""
  },
  {
   "property": "C47",
   "status": "proved",
   "theorems": [
    "Verif.Mem.C47_placement",
    "Verif.Mem.C47_same",
    "Verif.Mem.C47_ucontext_same"
   ],
   "note": ""
  },
  {
   "property": "C48",
   "status": "proved",
   "theorems": [
    "Verif.Detail.C48_roundtrip"
   ],
   "note": ""
  },
  {
   "property": "C50",
   "status": "proved",
   "theorems": [
    "Verif.Detail.C50_head",
    "Verif.Detail.C50_tail",
    "Verif.Detail.C50_split",
    "Verif.Detail.C50_split_move",
    "Verif.Detail.C50_apply"
   ],
   "note": ""
  },
  {
   "property": "C51",
   "status": "proved",
   "theorems": [
    "Verif.Detail.C51_invoke"
   ],
   "note": ""
  },
  {
   "property": "C52",
   "status": "proved",
   "theorems": [
    "Verif.Detail.C52_exchange",
    "Verif.Detail.C52_alias"
   ],
   "note": ""
  },
  {
   "property": "C53",
   "status": "proved",
   "theorems": [
    "Verif.Detail.C53_prefetch",
    "Verif.Detail.C53_inside",
    "Verif.Detail.C53_diverges"
   ],
   "note": ""
  },
  {
   "property": "C54",
   "status": "proved",
   "theorems": [
    "Verif.Fiber.C54_no_stuck"
   ],
   "note": ""
  },
  {
   "property": "C55",
   "status": "proved",
   "theorems": [
    "Verif.Fiber.C55_terminates"
   ],
   "note": ""
  },
  {
   "property": "C56",
   "status": "proved",
   "theorems": [
    "Verif.UFiber.C56_terminate_iff",
    "Verif.UFiber.C56_assertion_iff",
    "Verif.UFiber.C56_no_stuck"
   ],
   "note": ""
  },
  {
   "property": "C68",
   "status": "proved",
   "theorems": [
    "Verif.UCont.C68_step_refines",
    "Verif.UCont.C68_history_refines",
    "Verif.UCont.C68_callcc",
    "Verif.UCont.C68_temporary_empty",
    "Verif.UCont.C68_callcc_returns",
    "Verif.UCont.C68_callcc_throws",
    "Verif.UCont.C68_created_is_entered",
    "Verif.UCont.C68_resumed_gets_resumer",
    "Verif.UCont.C68_callcc_gets_resumer",
    "Verif.UCont.C68_on_top",
    "Verif.UCont.C68_on_top_returns",
    "Verif.UCont.C68_destroy_unwinds"
   ],
   "note": ""
  },
  {
   "property": "C69",
   "status": "proved",
   "theorems": [
    "Verif.UCont.C69_exclusive",
    "Verif.UCont.C69_no_dangling",
    "Verif.UCont.C69_bool",
    "Verif.UCont.C69_one_thread"
   ],
   "note": ""
  },
  {
   "property": "C70",
   "status": "proved",
   "theorems": [
    "Verif.UCont.C70_released_once",
    "Verif.UCont.C70_after_release",
    "Verif.UCont.C70_at_release",
    "Verif.UCont.C70_no_lost_context",
    "Verif.UCont.C70_balance"
   ],
   "note": ""
  },
  {
   "property": "C71",
   "status": "proved",
   "theorems": [
    "Verif.UCont.C71_undefined_iff",
    "Verif.UCont.C71_assertion_iff",
    "Verif.UCont.C71_terminate_iff",
    "Verif.UCont.C71_empty_resume_ub",
    "Verif.UCont.C71_no_stuck"
   ],
   "note": ""
  },
  {
   "property": "C65",
   "status": "proved",
   "theorems": [
    "Verif.Asm.X86_64.C65_x86_64_inherits_guard",
    "Verif.Asm.X86_64.C65_x86_64_inherits",
    "Verif.Asm.X86_64.C65_x86_64_tsx",
    "Verif.Asm.X86_64Macho.C65_x86_64_macho_inherits",
    "Verif.Asm.X86_64Macho.C65_x86_64_macho_tsx",
    "Verif.Asm.I386.C65_i386_inherits",
    "Verif.Asm.I386.C65_i386_tsx",
    "Verif.Asm.I386Macho.C65_i386_macho_inherits",
    "Verif.Asm.I386Macho.C65_i386_macho_tsx",
    "Verif.Asm.X86_64Pe.C65_x86_64_pe_inherits",
    "Verif.Asm.X86_64Pe.C65_x86_64_pe_tsx",
    "Verif.Asm.S390x.C65_s390x_inherits",
    "Verif.Asm.Ppc32.C65_ppc32_inherits",
    "Verif.Asm.Ppc32b.C65_ppc32b_inherits",
    "Verif.Asm.Ppc32Macho.C65_ppc32_macho_inherits",
    "Verif.Asm.Ppc32Xcoff.C65_ppc32_xcoff_uninitialised",
    "Verif.Asm.Ppc32Xcoff.C65_ppc32_xcoff_violated",
    "Verif.Asm.I386Pe.C65_i386_pe_inherits",
    "Verif.Asm.I386Pe.C65_i386_pe_tsx"
   ],
   "note": ""
  },
  {
   "property": "C66",
   "status": "proved",
   "theorems": [
    "Verif.Asm.X86_64Cet.C66_cet_jump",
    "Verif.Asm.X86_64Cet.C66_cet_ontop",
    "Verif.Asm.X86_64Cet.C66_cet_no_token",
    "Verif.Asm.X86_64Cet.C66_cet_one_shot",
    "Verif.Asm.X86_64Cet.C66_cet_make",
    "Verif.Asm.X86_64Cet.C66_cet_first_ontop_faults",
    "Verif.Asm.X86_64Cet.C66_cet_return_restarts"
   ],
   "note": ""
  },
  {
   "property": "C67",
   "status": "proved",
   "theorems": [
    "Verif.Asm.I386Pe.C67_i386_pe_jump",
    "Verif.Asm.I386Pe.C67_i386_pe_ontop",
    "Verif.Asm.I386Pe.C67_i386_pe_make",
    "Verif.Asm.I386Pe.C67_i386_pe_first_activation",
    "Verif.Asm.I386Pe.C67_i386_pe_make_ends",
    "Verif.Asm.I386Pe.C67_i386_pe_make_endless",
    "Verif.Asm.I386Pe.C67_i386_pe_same"
   ],
   "note": ""
  },
  {
   "property": "C72",
   "status": "proved",
   "theorems": [
    "Verif.Hooks.Split.C72_runs_own",
    "Verif.Hooks.Split.C72_releases_own",
    "Verif.Hooks.Split.C72_released_once"
   ],
   "note": ""
  },
  {
   "property": "C73",
   "status": "proved",
   "theorems": [
    "Verif.Hooks.Asan.C73_no_fatal",
    "Verif.Hooks.Asan.C73_bounds",
    "Verif.Hooks.Asan.C73_fake_stack",
    "Verif.Hooks.Asan.C73_never_destroyed",
    "Verif.Hooks.Asan.C73_leak"
   ],
   "note": ""
  },
  {
   "property": "C74",
   "status": "proved",
   "theorems": [
    "Verif.Hooks.Tsan.C74_current",
    "Verif.Hooks.Tsan.C74_switch",
    "Verif.Hooks.Tsan.C74_destroy",
    "Verif.Hooks.Tsan.C74_once",
    "Verif.Hooks.Tsan.C74_create_fails"
   ],
   "note": ""
  },
  {
   "property": "C75",
   "status": "proved",
   "theorems": [
    "Verif.Hooks.Winfib.C75_current",
    "Verif.Hooks.Winfib.C75_switch",
    "Verif.Hooks.Winfib.C75_delete",
    "Verif.Hooks.Winfib.C75_exit",
    "Verif.Hooks.Winfib.C75_once",
    "Verif.Hooks.Winfib.C75_create_unchecked",
    "Verif.Hooks.Winfib.C75_conversion_undone"
   ],
   "note": ""
  },
  {
   "property": "C76",
   "status": "proved",
   "theorems": [
    "Verif.Asm.Ppc64v1.C76_ppc64v1_jump",
    "Verif.Asm.Ppc64v1.C76_ppc64v1_make",
    "Verif.Asm.Ppc64v1.C76_ppc64v1_make_toc",
    "Verif.Asm.Ppc64v1.C76_ppc64v1_first_ontop",
    "Verif.Asm.Ppc64v1.C76_ppc64v1_first_ontop_back",
    "Verif.Asm.Ppc64v1.C76_ppc64v1_first_ontop_misaligned",
    "Verif.Asm.Ppc64v1.C76_ppc64v1_identity",
    "Verif.Asm.Ppc64v1.C76_ppc64v1_first_ontop_lost",
    "Verif.Asm.Ppc64v1.C76_ppc64v1_loses_fprs",
    "Verif.Asm.Ppc64v1.C76_ppc64v1_fprs_violated",
    "Verif.Asm.Ppc64v1.C76_ppc64v1_ontop_descriptor",
    "Verif.Asm.Ppc64v1.C76_ppc64v1_ontop_frame",
    "Verif.Asm.Ppc64v1.C76_ppc64v1_ontop_function",
    "Verif.Asm.Ppc64v1.C76_ppc64v1_ontop"
   ],
   "note": ""
  },
  {
   "property": "C77",
   "status": "proved",
   "theorems": [
    "Verif.Asm.Ppc32Xcoff.C77_ppc32_xcoff_jump",
    "Verif.Asm.Ppc32Xcoff.C77_ppc32_xcoff_make",
    "Verif.Asm.Ppc32Xcoff.C77_ppc32_xcoff_make_toc",
    "Verif.Asm.Ppc32Xcoff.C77_ppc32_xcoff_first_ontop",
    "Verif.Asm.Ppc32Xcoff.C77_ppc32_xcoff_first_ontop_back_wrong",
    "Verif.Asm.Ppc32Xcoff.C77_ppc32_xcoff_first_ontop_garbage",
    "Verif.Asm.Ppc32Xcoff.C77_ppc32_xcoff_first_ontop_aligned",
    "Verif.Asm.Ppc32Xcoff.C77_ppc32_xcoff_identity",
    "Verif.Asm.Ppc32Xcoff.C77_ppc32_xcoff_first_ontop_lost",
    "Verif.Asm.Ppc32Xcoff.C77_ppc32_xcoff_loses_r13",
    "Verif.Asm.Ppc32Xcoff.C77_ppc32_xcoff_r13_violated",
    "Verif.Asm.Ppc32Xcoff.C77_ppc32_xcoff_ontop_descriptor",
    "Verif.Asm.Ppc32Xcoff.C77_ppc32_xcoff_ontop_frame",
    "Verif.Asm.Ppc32Xcoff.C77_ppc32_xcoff_ontop_function",
    "Verif.Asm.Ppc32Xcoff.C77_ppc32_xcoff_ontop"
   ],
   "note": ""
  },
  {
   "property": "C78",
   "status": "proved",
   "theorems": [
    "Verif.Asm.Ppc32Macho.C78_ppc32_macho_jump",
    "Verif.Asm.Ppc32Macho.C78_ppc32_macho_ontop",
    "Verif.Asm.Ppc32Macho.C78_ppc32_macho_ontop_fn",
    "Verif.Asm.Ppc32Macho.C78_ppc32_macho_make",
    "Verif.Asm.Ppc32Macho.C78_ppc32_macho_misaligned",
    "Verif.Asm.Ppc32Macho.C78_ppc32_macho_make_violated",
    "Verif.Asm.Ppc32Macho.C78_ppc32_macho_first_ontop"
   ],
   "note": ""
  },
  {
   "property": "C79",
   "status": "proved",
   "theorems": [
    "Verif.Asm.Ppc64Macho.C79_ppc64_macho_jump",
    "Verif.Asm.Ppc64Macho.C79_ppc64_macho_loses_fprs",
    "Verif.Asm.Ppc64Macho.C79_ppc64_macho_fprs_violated",
    "Verif.Asm.Ppc64Macho.C79_ppc64_macho_ontop_function",
    "Verif.Asm.Ppc64Macho.C79_ppc64_macho_ontop_result",
    "Verif.Asm.Ppc64Macho.C79_ppc64_macho_ontop_argument",
    "Verif.Asm.Ppc64Macho.C79_ppc64_macho_ontop_context",
    "Verif.Asm.Ppc64Macho.C79_ppc64_macho_ontop_violated",
    "Verif.Asm.Ppc64Macho.C79_ppc64_macho_make_truncates",
    "Verif.Asm.Ppc64Macho.C79_ppc64_macho_make_returns",
    "Verif.Asm.Ppc64Macho.C79_ppc64_macho_make_violated",
    "Verif.Asm.Ppc64Macho.C79_ppc64_macho_make_entry",
    "Verif.Asm.Ppc64Macho.C79_ppc64_macho_make_entry_wrong",
    "Verif.Asm.Ppc64Macho.C79_ppc64_macho_make_argument"
   ],
   "note": ""
  },
  {
   "property": "C80",
   "status": "proved",
   "theorems": [
    "Verif.Link.C80_cont_step_prims",
    "Verif.Link.C80_cont_history_prims",
    "Verif.Link.C80_cont_resume_prims",
    "Verif.Link.C80_cont_resume_with_prims",
    "Verif.Link.C80_callcc_prims",
    "Verif.Link.C80_callcc_returns",
    "Verif.Link.C80_x86_64",
    "Verif.Link.C80_i386",
    "Verif.Link.C80_arm64",
    "Verif.Link.C80_riscv64",
    "Verif.Link.C80_loongarch64",
    "Verif.Link.C80_arm",
    "Verif.Link.C80_mips64",
    "Verif.Link.C80_mips32",
    "Verif.Link.C80_s390x",
    "Verif.Link.C80_ppc32",
    "Verif.Link.C80_ppc32b",
    "Verif.Link.C80_ppc64",
    "Verif.Link.C80_x86_64_macho",
    "Verif.Link.C80_i386_macho",
    "Verif.Link.C80_arm64_macho",
    "Verif.Link.C80_arm_macho",
    "Verif.Link.C80_x86_64_pe",
    "Verif.Link.C80_ppc64v1",
    "Verif.Link.C80_ppc32_xcoff",
    "Verif.Link.C80_ppc32_macho",
    "Verif.Link.C80_i386_pe",
    "Verif.Link.C80_arm64_pe",
    "Verif.Link.C80_arm_pe",
    "Verif.Link.C80_step_prims",
    "Verif.Link.C80_history_prims",
    "Verif.Link.C80_resume_prims",
    "Verif.Link.C80_resume_with_prims",
    "Verif.Link.C80_create_prims",
    "Verif.Link.C80_destroy_prims",
    "Verif.Link.C80_of_calls",
    "Verif.Link.C80_of_specs",
    "Verif.Link.C80_resume_returns",
    "Verif.Link.C80_addresses"
   ],
   "note": ""
  },
  {
   "property": "C81",
   "status": "proved",
   "theorems": [
    "Verif.Asm.Ppc64v1.C81_ppc64v1",
    "Verif.Asm.Ppc32Xcoff.C81_ppc32_xcoff",
    "Verif.Asm.I386.C81_i386",
    "Verif.Asm.I386Macho.C81_i386_macho",
    "Verif.Asm.I386Pe.C81_i386_pe",
    "Verif.Asm.Arm64Macho.C81_arm64_macho",
    "Verif.Asm.Arm64Pe.C81_arm64_pe",
    "Verif.Asm.Arm64.C81_arm64",
    "Verif.Asm.RiscV64.C81_riscv64",
    "Verif.Asm.LoongArch64.C81_loongarch64",
    "Verif.Asm.Mips64.C81_mips64",
    "Verif.Asm.Ppc64.C81_ppc64",
    "Verif.Asm.Ppc32b.C81_ppc32b",
    "Verif.Asm.Arm32.C81_arm",
    "Verif.Asm.ArmMacho.C81_arm_macho",
    "Verif.Asm.Mips32.C81_mips32",
    "Verif.Asm.Ppc32.C81_ppc32",
    "Verif.Asm.S390x.C81_s390x",
    "Verif.Asm.Ppc32Macho.C81_ppc32_macho",
    "Verif.Asm.ArmPe.C81_arm_pe",
    "Verif.Asm.X86_64.C81_x86_64",
    "Verif.Asm.X86_64Macho.C81_x86_64_macho",
    "Verif.Asm.X86_64Pe.C81_x86_64_pe"
   ],
   "note": "x86_64 without the stack protector option. Not covered: PowerPC 64 Darwin, SPARC64"
  },
  {
   "property": "C82",
   "status": "proved",
   "theorems": [
    "Verif.Asm.Ppc64v1.C82_ppc64v1",
    "Verif.Asm.Ppc32Xcoff.C82_ppc32_xcoff",
    "Verif.Asm.I386.C82_i386",
    "Verif.Asm.I386Macho.C82_i386_macho",
    "Verif.Asm.I386Pe.C82_i386_pe",
    "Verif.Asm.Arm64Macho.C82_arm64_macho",
    "Verif.Asm.Arm64Pe.C82_arm64_pe",
    "Verif.Asm.Arm64.C82_arm64",
    "Verif.Asm.RiscV64.C82_riscv64",
    "Verif.Asm.LoongArch64.C82_loongarch64",
    "Verif.Asm.Mips64.C82_mips64",
    "Verif.Asm.Ppc64.C82_ppc64",
    "Verif.Asm.Ppc32b.C82_ppc32b",
    "Verif.Asm.Arm32.C82_arm",
    "Verif.Asm.ArmMacho.C82_arm_macho",
    "Verif.Asm.Mips32.C82_mips32",
    "Verif.Asm.Ppc32.C82_ppc32",
    "Verif.Asm.S390x.C82_s390x",
    "Verif.Asm.Ppc32Macho.C82_ppc32_macho",
    "Verif.Asm.ArmPe.C82_arm_pe",
    "Verif.Asm.X86_64.C82_x86_64",
    "Verif.Asm.X86_64Macho.C82_x86_64_macho",
    "Verif.Asm.X86_64Pe.C82_x86_64_pe",
    "Verif.Asm.Micro.C82_of_footprints"
   ],
   "note": "same ports as C81; sequentially consistent memory; ARM and ARM64 Windows without on-top calls"
  },
  {
   "property": "C83",
   "status": "proved",
   "theorems": [
    "Verif.Link.Stack.C83_x86_64",
    "Verif.Link.Stack.C83_x86_64_macho",
    "Verif.Link.Stack.C83_x86_64_pe",
    "Verif.Link.Stack.C83_i386",
    "Verif.Link.Stack.C83_i386_macho",
    "Verif.Link.Stack.C83_i386_pe",
    "Verif.Link.Stack.C83_arm64",
    "Verif.Link.Stack.C83_arm64_macho",
    "Verif.Link.Stack.C83_arm64_pe",
    "Verif.Link.Stack.C83_arm",
    "Verif.Link.Stack.C83_arm_macho",
    "Verif.Link.Stack.C83_arm_pe",
    "Verif.Link.Stack.C83_mips32",
    "Verif.Link.Stack.C83_mips64",
    "Verif.Link.Stack.C83_riscv64",
    "Verif.Link.Stack.C83_loongarch64",
    "Verif.Link.Stack.C83_s390x",
    "Verif.Link.Stack.C83_ppc32",
    "Verif.Link.Stack.C83_ppc32b",
    "Verif.Link.Stack.C83_ppc32_macho",
    "Verif.Link.Stack.C83_ppc32_xcoff",
    "Verif.Link.Stack.C83_ppc64",
    "Verif.Link.Stack.C83_ppc64v1"
   ],
   "note": ""
  },
  {
   "property": "C84",
   "status": "proved",
   "theorems": [
    "Verif.Build.C84_cmake_one",
    "Verif.Build.C84_cmake_native",
    "Verif.Build.C84_cmake_other",
    "Verif.Build.C84_cmake_m32",
    "Verif.Build.C84_cmake_missing",
    "Verif.Build.C84_universal",
    "Verif.Build.C84_universal_right",
    "Verif.Build.C84_jam_unique",
    "Verif.Build.C84_jam_right",
    "Verif.Build.C84_jam_deviating",
    "Verif.Build.C84_jam_missing",
    "Verif.Build.C84_jam_tail",
    "Verif.Build.C84_cmake_tail"
   ],
   "note": ""
  },
  {
   "property": "C85",
   "status": "proved",
   "theorems": [
    "Verif.Mem.C85_withdrawn_once",
    "Verif.Mem.C85_fault_iff",
    "Verif.Mem.C85_exact",
    "Verif.Mem.C85_count",
    "Verif.Mem.C85_live",
    "Verif.Mem.C85_all_withdrawn",
    "Verif.Mem.C85_windows_unregistered"
   ],
   "note": ""
  },
  {
   "property": "C86",
   "status": "proved",
   "theorems": [
    "Verif.UFiber.C86_step_coherent",
    "Verif.UFiber.C86_history_coherent",
    "Verif.UFiber.C86_throw",
    "Verif.UFiber.C86_next_resume",
    "Verif.UFiber.C86_wrong_handle_resumes",
    "Verif.UFiber.C86_throw_hijacks",
    "Verif.UFiber.C86_switch_loses",
    "Verif.UFiber.C86_lost_forever",
    "Verif.UFiber.C86_throw_loses",
    "Verif.UFiber.C86_wrong_resumer",
    "Verif.UFiber.C86_main_unwound",
    "Verif.UFiber.C86_finished_unreachable"
   ],
   "note": ""
  },
  {
   "property": "C87",
   "status": "proved",
   "theorems": [
    "Verif.Hooks.Mask.C87_runs_own",
    "Verif.Hooks.Mask.C87_fiber_inherits",
    "Verif.Hooks.Mask.C87_callcc_inherits"
   ],
   "note": ""
  },
  {
   "property": "C88",
   "status": "proved",
   "theorems": [
    "Verif.Backends.Cc.C88_continuations_agree",
    "Verif.Backends.Cc.C88_restrictions_needed"
   ],
   "note": ""
  },
  {
   "property": "C89",
   "status": "proved",
   "theorems": [
    "Verif.Mem.Record.C89_no_fault",
    "Verif.Mem.Record.C89_alive",
    "Verif.Mem.Record.C89_deleted",
    "Verif.Mem.Record.C89_dead",
    "Verif.Mem.Record.C89_stack",
    "Verif.Mem.Record.C89_given_back",
    "Verif.Mem.Record.C89_getcontext_lvalue",
    "Verif.Mem.Record.C89_getcontext_rvalue",
    "Verif.Mem.Record.C89_getcontext_rvalue_deletes"
   ],
   "note": ""
  },
  {
   "property": "C90",
   "status": "proved",
   "theorems": [
    "Verif.Link.C90_of_calls",
    "Verif.Link.C90_of_specs",
    "Verif.Link.C90_x86_64",
    "Verif.Link.C90_i386",
    "Verif.Link.C90_arm64",
    "Verif.Link.C90_riscv64",
    "Verif.Link.C90_loongarch64",
    "Verif.Link.C90_arm",
    "Verif.Link.C90_mips64",
    "Verif.Link.C90_mips32",
    "Verif.Link.C90_s390x",
    "Verif.Link.C90_ppc32",
    "Verif.Link.C90_ppc32b",
    "Verif.Link.C90_ppc64",
    "Verif.Link.C90_x86_64_macho",
    "Verif.Link.C90_i386_macho",
    "Verif.Link.C90_arm64_macho",
    "Verif.Link.C90_arm_macho",
    "Verif.Link.C90_x86_64_pe",
    "Verif.Link.C90_ppc64v1",
    "Verif.Link.C90_ppc32_xcoff",
    "Verif.Link.C90_ppc32_macho",
    "Verif.Link.C90_i386_pe",
    "Verif.Link.C90_arm64_pe",
    "Verif.Link.C90_arm_pe",
    "Verif.Link.C90_cont_bool",
    "Verif.Link.C90_cont_total",
    "Verif.Link.C90_cont_stable",
    "Verif.UFiber.C90_ucontext_bool",
    "Verif.UFiber.C90_ucontext_total",
    "Verif.UFiber.C90_ucontext_empty",
    "Verif.UFiber.C90_ucontext_stable",
    "Verif.UFiber.C90_ucontext_finished",
    "Verif.UCont.C90_ucontext_cont_bool",
    "Verif.UCont.C90_ucontext_cont_total",
    "Verif.UCont.C90_ucontext_cont_empty"
   ],
   "note": ""
  },
  {
   "property": "C91",
   "status": "proved",
   "theorems": [
    "Verif.UCont.C91_pending_runs",
    "Verif.UCont.C91_never_again",
    "Verif.UCont.C91_return_clears",
    "Verif.UCont.C91_exactly_once",
    "Verif.UCont.C91_throw_keeps",
    "Verif.UCont.C91_violation_throw",
    "Verif.UCont.C91_violation_suspend",
    "Verif.UCont.C91_unwound_never",
    "Verif.UCont.C91_resume_throws",
    "Verif.UCont.C91_sticky",
    "Verif.UCont.C91_violation_unwinding"
   ],
   "note": ""
  },
  {
   "property": "C92",
   "status": "proved",
   "theorems": [
    "Verif.Asm.Mips32.C92_mips32",
    "Verif.Asm.Mips64.C92_mips64",
    "Verif.Asm.Mips64.C92_mips64_violated",
    "Verif.Asm.Ppc64.C92_ppc64",
    "Verif.Asm.Ppc64.C92_ppc64_plt",
    "Verif.Asm.Ppc64.C92_ppc64_other_module",
    "Verif.Asm.Ppc64v1.C92_ppc64v1",
    "Verif.Asm.Ppc32Xcoff.C92_ppc32_xcoff",
    "Verif.Asm.Ppc32.C92_ppc32",
    "Verif.Asm.Ppc32.C92_ppc32_r30",
    "Verif.Asm.Ppc32b.C92_ppc32b",
    "Verif.Asm.Ppc32Macho.C92_ppc32_macho",
    "Verif.Asm.Sparc64.C92_sparc64",
    "Verif.Asm.Arm64.C92_arm64",
    "Verif.Asm.Arm64Macho.C92_arm64_macho",
    "Verif.Asm.Arm64Pe.C92_arm64_pe",
    "Verif.Asm.Arm32.C92_arm",
    "Verif.Asm.ArmMacho.C92_arm_macho",
    "Verif.Asm.ArmPe.C92_arm_pe",
    "Verif.Asm.RiscV64.C92_riscv64",
    "Verif.Asm.LoongArch64.C92_loongarch64",
    "Verif.Asm.S390x.C92_s390x",
    "Verif.Asm.X86_64.C92_x86_64",
    "Verif.Asm.X86_64Macho.C92_x86_64_macho",
    "Verif.Asm.X86_64Pe.C92_x86_64_pe_masm",
    "Verif.Asm.X86_64Pe.C92_x86_64_pe",
    "Verif.Asm.I386.C92_i386",
    "Verif.Asm.I386.C92_i386_got",
    "Verif.Asm.I386Macho.C92_i386_macho",
    "Verif.Asm.I386Pe.C92_i386_pe",
    "Verif.Asm.X86_64.C92_x86_64_any"
   ],
   "note": ""
  },
  {
   "property": "C93",
   "status": "proved",
   "theorems": [
    "Verif.EH.C.C93_continuation_handlers",
    "Verif.EH.C.C93_continuation_rethrow",
    "Verif.EH.C.C93_continuation_idle",
    "Verif.EH.C.C93_continuation_inside_catch_violated",
    "Verif.EH.C.C93_continuation_own",
    "Verif.EH.C.C93_continuation_waits",
    "Verif.EH.C.C93_continuation_state",
    "Verif.EH.C.C93_continuation_rethrow_clean",
    "Verif.EH.C.C93_continuation_uncaught",
    "Verif.EH.C.C93_continuation_uncaught_own",
    "Verif.EH.C.C93_continuation_dtor",
    "Verif.EH.C93_handlers",
    "Verif.EH.C93_rethrow",
    "Verif.EH.C93_idle",
    "Verif.EH.C93_inside_catch_violated",
    "Verif.EH.C93_own",
    "Verif.EH.C93_waits",
    "Verif.EH.C93_state",
    "Verif.EH.C93_rethrow_clean",
    "Verif.EH.C93_uncaught",
    "Verif.EH.C93_uncaught_own",
    "Verif.EH.C93_dtor",
    "Verif.EH.UC.C93_ucontext_continuation_handlers",
    "Verif.EH.UC.C93_ucontext_continuation_rethrow",
    "Verif.EH.UC.C93_ucontext_continuation_idle",
    "Verif.EH.UC.C93_ucontext_continuation_inside_catch_violated",
    "Verif.EH.UC.C93_ucontext_continuation_own",
    "Verif.EH.UC.C93_ucontext_continuation_waits",
    "Verif.EH.UC.C93_ucontext_continuation_state",
    "Verif.EH.UC.C93_ucontext_continuation_rethrow_clean",
    "Verif.EH.UC.C93_ucontext_continuation_uncaught",
    "Verif.EH.UC.C93_ucontext_continuation_uncaught_own",
    "Verif.EH.UC.C93_ucontext_continuation_dtor",
    "Verif.EH.U.C93_ucontext_handlers",
    "Verif.EH.U.C93_ucontext_rethrow",
    "Verif.EH.U.C93_ucontext_idle",
    "Verif.EH.U.C93_ucontext_inside_catch_violated",
    "Verif.EH.U.C93_ucontext_own",
    "Verif.EH.U.C93_ucontext_waits",
    "Verif.EH.U.C93_ucontext_state",
    "Verif.EH.U.C93_ucontext_rethrow_clean",
    "Verif.EH.U.C93_ucontext_uncaught",
    "Verif.EH.U.C93_ucontext_uncaught_own",
    "Verif.EH.U.C93_ucontext_dtor"
   ],
   "note": ""
  },
  {
   "property": "C94",
   "status": "proved",
   "theorems": [
    "Verif.Sync.C.C94_continuation_uses_ordered",
    "Verif.Sync.C.C94_continuation_release_last",
    "Verif.Sync.C94_uses_ordered",
    "Verif.Sync.C94_release_last",
    "Verif.Sync.C94_objects_needed",
    "Verif.Sync.C94_not_total",
    "Verif.Sync.UC.C94_ucontinuation_uses_ordered",
    "Verif.Sync.UC.C94_ucontinuation_release_last",
    "Verif.Sync.U.C94_ucontext_uses_ordered",
    "Verif.Sync.U.C94_ucontext_release_last"
   ],
   "note": ""
  },
  {
   "property": "C95",
   "status": "proved",
   "theorems": [
    "Verif.Cont.C95_continuation_lifecycle",
    "Verif.Cont.C95_continuation_lifecycle_schedule",
    "Verif.Cont.C95_continuation_depth",
    "Verif.Cont.C95_continuation_loop",
    "Verif.Cont.C95_continuation_pool",
    "Verif.Cont.C95_continuation_any_number",
    "Verif.Cont.C95_continuation_any_schedule",
    "Verif.Cont.C95_continuation_pool_exit",
    "Verif.Cont.C95_continuation_pool_drain",
    "Verif.Cont.C95_continuation_pool_threads",
    "Verif.Cont.C95_continuation_pool_with",
    "Verif.Cont.C95_continuation_scheduler",
    "Verif.Fiber.C95_lifecycle",
    "Verif.Fiber.C95_lifecycle_schedule",
    "Verif.Fiber.C95_depth",
    "Verif.Fiber.C95_loop",
    "Verif.Fiber.C95_pool",
    "Verif.Fiber.C95_any_number",
    "Verif.Fiber.C95_any_schedule",
    "Verif.Fiber.C95_pool_exit",
    "Verif.Fiber.C95_pool_drain",
    "Verif.Fiber.C95_pool_threads",
    "Verif.Fiber.C95_pool_with",
    "Verif.Fiber.C95_scheduler",
    "Verif.UCont.C95_ucontinuation_lifecycle",
    "Verif.UCont.C95_ucontinuation_lifecycle_schedule",
    "Verif.UCont.C95_ucontinuation_depth",
    "Verif.UCont.C95_ucontinuation_loop",
    "Verif.UCont.C95_ucontinuation_pool",
    "Verif.UCont.C95_ucontinuation_any_number",
    "Verif.UCont.C95_ucontinuation_any_schedule",
    "Verif.UCont.C95_ucontinuation_pool_exit",
    "Verif.UCont.C95_ucontinuation_pool_drain",
    "Verif.UCont.C95_ucontinuation_pool_threads",
    "Verif.UCont.C95_ucontinuation_pool_with",
    "Verif.UCont.C95_ucontinuation_scheduler",
    "Verif.UFiber.C95_ucontext_lifecycle",
    "Verif.UFiber.C95_ucontext_lifecycle_schedule",
    "Verif.UFiber.C95_ucontext_depth",
    "Verif.UFiber.C95_ucontext_loop",
    "Verif.UFiber.C95_ucontext_pool",
    "Verif.UFiber.C95_ucontext_any_number",
    "Verif.UFiber.C95_ucontext_any_schedule",
    "Verif.UFiber.C95_ucontext_pool_exit",
    "Verif.UFiber.C95_ucontext_pool_drain",
    "Verif.UFiber.C95_ucontext_pool_threads",
    "Verif.UFiber.C95_ucontext_pool_with",
    "Verif.UFiber.C95_ucontext_scheduler"
   ],
   "note": ""
  },
  {
   "property": "C96",
   "status": "proved",
   "theorems": [
    "Verif.Cont.C96_continuation_step",
    "Verif.Cont.C96_continuation_history",
    "Verif.Cont.C96_continuation_exchange",
    "Verif.Fiber.C96_step",
    "Verif.Fiber.C96_history",
    "Verif.Fiber.C96_exchange",
    "Verif.UCont.C96_ucontext_continuation_step",
    "Verif.UCont.C96_ucontext_continuation_history",
    "Verif.UCont.C96_ucontext_continuation_exchange",
    "Verif.UFiber.C96_ucontext_step",
    "Verif.UFiber.C96_ucontext_history",
    "Verif.UFiber.C96_ucontext_exchange"
   ],
   "note": ""
  },
  {
   "property": "C97",
   "status": "proved",
   "theorems": [
    "Verif.Cont.C97_continuation_resumed",
    "Verif.Cont.C97_continuation_callcc",
    "Verif.Fiber.C97_resumed",
    "Verif.Fiber.C97_not_started",
    "Verif.UCont.C97_ucontext_continuation_resumed",
    "Verif.UCont.C97_ucontext_continuation_callcc",
    "Verif.UFiber.C97_ucontext_resumed",
    "Verif.UFiber.C97_ucontext_not_started"
   ],
   "note": ""
  },
  {
   "property": "C98",
   "status": "proved",
   "theorems": [
    "Verif.Cont.C98_continuation_step",
    "Verif.Cont.C98_continuation_history",
    "Verif.Cont.C98_continuation_swap",
    "Verif.Cont.C98_continuation_move",
    "Verif.Cont.C98_continuation_rename",
    "Verif.Fiber.C98_step",
    "Verif.Fiber.C98_history",
    "Verif.Fiber.C98_swap",
    "Verif.Fiber.C98_move",
    "Verif.Fiber.C98_rename",
    "Verif.UCont.C98_ucontext_continuation_step",
    "Verif.UCont.C98_ucontext_continuation_history",
    "Verif.UCont.C98_ucontext_continuation_swap",
    "Verif.UCont.C98_ucontext_continuation_move",
    "Verif.UCont.C98_ucontext_continuation_rename",
    "Verif.UFiber.C98_ucontext_step",
    "Verif.UFiber.C98_ucontext_history",
    "Verif.UFiber.C98_ucontext_swap",
    "Verif.UFiber.C98_ucontext_move",
    "Verif.UFiber.C98_ucontext_rename"
   ],
   "note": ""
  },
  {
   "property": "C99",
   "status": "proved",
   "theorems": [
    "Verif.Cont.C99_continuation_resumes_commute",
    "Verif.Cont.C99_continuation_history",
    "Verif.Fiber.C99_resumes_commute",
    "Verif.Fiber.C99_history",
    "Verif.UCont.C99_ucontext_continuation_resumes_commute",
    "Verif.UCont.C99_ucontext_continuation_history",
    "Verif.UFiber.C99_ucontext_resumes_commute",
    "Verif.UFiber.C99_ucontext_history"
   ],
   "note": ""
  }
 ]
}