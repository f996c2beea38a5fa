MUTANTS=[]
def m(name,file,d,old,new,claim,nth=0): MUTANTS.append(dict(name='bd_'+name,file=file,old=old,new=new,nth=nth,definition=d,claim=claim))
C='Build/CMake.lean'; J='Build/JamTable.lean'
m('arm_case',C,'isArm',"(a == 'A' || a == 'a')","(a == 'a')",'C84: ARM64 Windows')
m('arm_any',C,'isArm',"(m == 'M' || m == 'm')","true",'C84: only arm names')
m('mips_pre',C,'isMips',"'m' :: 'i' :: 'p' :: 's' :: _ => true","'m' :: 'i' :: 'p' :: 's' :: [] => true",'C84: mipsel, mips64el')
m('abi_order',C,'defaultAbi','if isArm p.proc || p.proc == "aarch64" then "aapcs"\n  else if p.win32 then "ms"','if p.win32 then "ms"\n  else if isArm p.proc || p.proc == "aarch64" then "aapcs"','C84: ARM Windows')
m('abi_bits',C,'defaultAbi','if p.ptr * 8 == 32 then "o32"','if p.ptr == 32 then "o32"','C84: MIPS32')
m('abi_aarch64',C,'defaultAbi','isArm p.proc || p.proc == "aarch64"','isArm p.proc','C84: aarch64 ELF')
m('arch_swap',C,'defaultArch','if isArm p.proc then "arm" else','if isArm p.proc then "arm64" else','C84: 32 bit ARM')
m('arch_known',C,'allArchs','"riscv64", ','','C84: RISC-V')
m('arch_aarch64',C,'defaultArch','if p.proc == "aarch64" || isArm p.proc then "arm64"','if isArm p.proc then "arm64"','C84: aarch64')
m('asm_arm',C,'defaultAsm','if arch == "arm64" || arch == "arm" then "armasm"','if arch == "arm64" then "armasm"','C84: ARM Windows')
m('ext_pe',C,'defaultExt','if binfmt == "pe" then ".asm" else','','C84: MinGW')
m('macho',C,'suffix','if binfmt == "mach-o" then "macho" else binfmt','binfmt','C84: Darwin')
m('order',C,'suffix','arch ++ "_" ++ abi ++','abi ++ "_" ++ arch ++','C84: file names')
m('swap_src',C,'sources','"src/asm/make_" ++ suffix p o, "src/asm/jump_" ++ suffix p o','"src/asm/jump_" ++ suffix p o, "src/asm/jump_" ++ suffix p o','C84: all three routines')
m('univ',C,'combined','("__x86_64__", r ++ "_x86_64_sysv_macho_gas.S")','("__x86_64__", r ++ "_i386_sysv_macho_gas.S")','C84: universal')
m('univ2',C,'i386_x86_64','("__x86_64__", r ++ "_x86_64_sysv_macho_gas.S")]','("__x86_64__", "jump_x86_64_sysv_macho_gas.S")]','C84: universal stubs of one port')
m('jam_mix',J,'asmSources','"asm/jump_mips64_n64_elf_gas.S"','"asm/jump_mips32_o32_elf_gas.S"','C84: one port')
m('jam_dup',J,'asmSources','("address-model", "64"), ("architecture", "riscv"), ("binary-format", "elf"), ("toolset", "gcc")','("address-model", "64"), ("architecture", "riscv"), ("binary-format", "elf")','C84: ambiguity with the clang alternative')
m('jam_model',J,'asmSources','("address-model", "32"), ("architecture", "power"), ("binary-format", "xcoff"), ("toolset", "gcc")','("address-model", "64"), ("architecture", "power"), ("binary-format", "xcoff"), ("toolset", "gcc")','C84: wrong address model')
m('jam_tail',J,'asmSources','"asm/ontop_ppc32_sysv_elf_gas.S", "asm/tail_ontop_ppc32_sysv.cpp"','"asm/ontop_ppc32_sysv_elf_gas.S"','C84: C++ part of PowerPC 32')
m('jam_abi',J,'asmSources','("abi", "x32")','("abi", "sysv")','C84: x32 and 32 bit System V')
m('jam_ext',J,'asmSources','"asm/make_x86_64_ms_pe_gas.asm"','"asm/make_x86_64_ms_pe_gas.S"','C84: files exist')
