{
 "C03": {
  "note": "hypothesis: forced_unwind never swallowed (the documented requirement); a history that swallows it is shown to lose a context"
 },
 "C21": {
  "note": "forward simulation by the fiber machine; C21_lvalue_function_ub shows the one place where continuation differs (type confusion for lvalue callables)"
 },
 "C22": {
  "note": "under the proviso of the property; C22_violation shows it is needed"
 },
 "C23": {
  "note": "states what the code does; C23_violation refutes the documented order, C23_fcontext_order shows it for fcontext"
 },
 "C24": {
  "note": "states what the code does; differs from fcontext (C24_fcontext_not_started)"
 },
 "C25": {
  "note": "states what the code does; C25_violation_* refute 'exactly once' in general"
 },
 "C26": {
  "note": "states what the code does; C26_violation: a destructor that resumes during unwinding ends in std::terminate"
 },
 "C30": {
  "note": "with the TLS stack protector option the make claim is refuted (C30_x86_64_guard_violates)"
 },
 "C36": {
  "note": "$gp of n64 excluded: refuted by C36_mips64_gp_not_saved"
 },
 "C38": {
  "note": "ontop: up to the entry of ontop_fcontext_tail, with fn passed on (C38_*_ontop_fn)"
 },
 "C39": {
  "note": "own machine with register windows; stated with the register window chain instead of the generic Port specification"
 },
 "C57": {
  "note": "callee-saved FPRs excluded: the claim including them is refuted (C57_ppc64_fprs_violated)"
 },
 "C59": {
  "note": "the routines are proved equal to the ELF ones instruction by instruction (port_eq)"
 },
 "C60": {
  "note": "first activation: SjLj chain head uninitialised (C60_arm_macho_sjlj_uninitialised), sp is 4 mod 16 (C60_arm_macho_not_aapcs)"
 },
 "C62": {
  "note": "gas/MASM/clang sources are the same instruction lists (C62_x86_64_pe_same); on-top parameter aliases result object (C62_x86_64_pe_ontop_alias)"
 },
 "C63": {
  "note": "ontop_fcontext leaves sp 16 bytes low: C63_arm64_pe_ontop_low/_return state exactly what holds, C63_arm64_pe_ontop_violated refutes the rest; armasm and armclang sources are the same instructions"
 },
 "C64": {
  "note": "ontop_fcontext is wrong: C64_arm_pe_ontop_wrong states exactly what it does, C64_arm_pe_ontop_violated refutes the spec; d8-d15 not saved (C64_arm_pe_loses_fprs, _fprs_violated)"
 },
 "C81": {
  "note": "x86_64 without the stack protector option. Not covered: PowerPC 64 Darwin, SPARC64"
 },
 "C82": {
  "note": "same ports as C81; sequentially consistent memory; ARM and ARM64 Windows without on-top calls"
 }
}