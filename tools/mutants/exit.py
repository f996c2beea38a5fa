# the stub `finish` (C92)
MUTANTS=[]
def m(name,file,old,new,claim,nth=0): MUTANTS.append(dict(name='ex_'+name,file='Asm/'+file+'.lean',old=old,new=new,nth=nth,definition='Asm '+file+' finish',claim='C92: '+claim))
P='ExitPorts'
m('a64_arg',P,'.movi (x 0) 0#_, .movi (x 30) nxt','.movi (x 1) 0#_, .movi (x 30) nxt','parameter of _exit')
m('a64m_arg',P,'.movi (x 0) 0#_, .movi (x 30) nxt','.movi (x 0) 1#_, .movi (x 30) nxt','exit status',1)
m('arm_arg',P,'.movi (a 1) 0#_, .movi lr nxt','.movi lr nxt','parameter of _exit')
m('arm2_arg',P,'.movi (a 1) 0#_, .movi lr nxt','.movi (a 2) 0#_, .movi lr nxt','parameter of _exit',1)
m('arm3_to',P,'[.movi (a 1) 0#_, .movi lr nxt], to := .sym','[.movi (a 1) 0#_, .movi lr nxt], to := .reg lr','_exit is entered',2)
m('rv_arg',P,'.movi (a 0) 0#_]','.movi (a 1) 0#_]','parameter of _exit')
m('la_arg',P,'.movi (a 0) 0#_]','.movi (a 0) 2#_]','exit status',1)
m('s390_arg',P,'.movi (r 2) 0#_, ','.movi (r 3) 0#_, ','parameter of _exit')
m('x64_push',P,'[.movi rdi 0#_, .addi rsp rsp (-off A 8), .sti nxt rsp 0]','[.movi rdi 0#_]','stack pointer at the entry of _exit (jmp instead of call)')
m('x64m_push',P,'[.movi rdi 0#_, .addi rsp rsp (-off A 8), .sti nxt rsp 0]','[.movi rdi 0#_, .addi rsp rsp (-off A 16), .sti nxt rsp 0]','alignment at the entry of _exit',1)
m('pe_rdi',P,'def finishMasm : Stub A := { is := fun nxt => [.movi rcx 0#_','def finishMasm : Stub A := { is := fun nxt => [.movi rdi 0#_','parameter of _exit')
m('pe_mask',P,'(mask A 5)','(mask A 3)','alignment at the entry of _exit')
m('pe_noshadow',P,'[.andi rsp rsp (mask A 5), .movi rcx 0#_','[.movi rcx 0#_','alignment at the entry of _exit')
m('i386_slot',P,'.movi eax 0#_, .st eax esp 0, .addi esp','.movi eax 0#_, .st eax esp 4, .addi esp','parameter slot')
m('i386_slot2',P,'.movi eax 0#_, .st eax esp 0, .addi esp','.movi eax 0#_, .st ebx esp 0, .addi esp','parameter value',1)
M='ExitMore'
m('ppc_lr',M,'.addi (r 30) (r 30) (toc - l), .movi (r 3) 0#_','.addi (r 30) (r 30) toc, .movi (r 3) 0#_','GOT pointer')
m('ppc_r4',M,'.addi (r 30) (r 30) (toc - l), .movi (r 3) 0#_','.addi (r 30) (r 30) (toc - l), .movi (r 4) 0#_','parameter of _exit',1)
m('ppcm_ind',M,'.addi (r 4) (r 4) (p - l), .ld (r 4) (r 4) 0, .mov ctr (r 4)','.addi (r 4) (r 4) (p - l), .mov ctr (r 4)','_exit is entered (pointer not dereferenced)')
m('ppcm_r3',M,'.mov ctr (r 4), .movi (r 3) 0#_]','.movi (r 3) 0#_]','_exit is entered')
m('sparc_arg',M,'(.add (.g 0) 0#_ (.o 0))','(.add (.g 0) 1#_ (.o 0))','exit status')
m('sparc_arg2',M,'(.add (.g 0) 0#_ (.o 0))','(.add (.g 0) 0#_ (.o 1))','parameter of _exit')
X='ExitMips'
m('mips_gp',X,'.ld gp sp 16','.ld gp sp 12','gp slot')
m('mips_a0',X,'.ld (t 9) gp o, .movi (a 0) 0#_]','.ld (t 9) gp o, .movi (a 1) 0#_]','parameter of _exit')
m('mips64_gp',X,'.ld gp (t 0) 136','.ld gp (t 0) 128','gp slot')
m('mips64_frame',X,'(-off A 160)','(-off A 152)','frame of make_fcontext')
m('i386_got',P,'.addi ebx ebx (got - l)','.addi ebx ebx got','GOT pointer in ebx')
m('i386_esp',P,'.ld ebx esp 0, .addi esp esp (off A 4), .addi ebx','.ld ebx esp 0, .addi ebx','stack pointer restored after call/pop')
m('i386_arg',P,'.movi eax 0#_, .st eax esp 0,\n','.movi eax 0#_,\n','parameter of _exit')
m('ppc64_frame',M,'.addi (r 1) (r 1) (-off A 32), .st tmp','.addi (r 1) (r 1) (-off A 24), .st tmp','alignment at the entry of _exit')
m('ppc64_r4',M,'.st tmp (r 1) 0, .movi (r 3) 0#_','.st tmp (r 1) 0, .movi (r 4) 0#_','parameter of _exit')
m('ppc64v1_lr',M,'.st (r 0) (r 1) 8, .mov ctr','.st (r 0) (r 1) 48, .mov ctr','writes only its own few bytes')
m('xcoff_frame',M,'(-off A 16), .st ctr','(-off A 8), .st ctr','alignment at the entry of _exit')
