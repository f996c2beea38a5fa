F='Asm/Sparc64Code.lean'
MUTANTS=[]
def m(name,old,new,claim,d,nth=0): MUTANTS.append(dict(name='sp_'+name,file=F,old=old,new=new,nth=nth,definition='Sparc64.'+d,claim=claim))
m('jump_noflush','    .flushw,                             -- 38\n','','C39: windows of the suspended context are in memory','jump')
m('ontop_noflush','    .flushw,                             -- 31\n','','C39: windows of the suspended context are in memory','ontop')
m('jump_slot_fp','.ldx sp (BIAS + 128) fp,             -- 42','.ldx sp (BIAS + 120) fp,             -- 42','C39: frame pointer restored','jump')
m('jump_slot_i7','.ldx sp (BIAS + 136) (.i 7)]','.ldx sp (BIAS + 128) (.i 7)]','C39: return address restored','jump')
m('jump_nobias','.stx fp sp (BIAS + 128),             -- 34','.stx fp sp 128,             -- 34','C39: bias','jump')
m('jump_result','delay := .restore (.o 0) 0#_ (.o 0)    -- 46','delay := .restore (.o 1) 0#_ (.o 0)    -- 46','C39: result of jump is the suspended context','jump')
m('jump_norestore','delay := .restore (.o 0) 0#_ (.o 0)    -- 46','delay := .nop','C39: windows','jump')
m('jump_disp','disp := off A 8','disp := off A 4','C39: return address is behind the delay slot','jump')
m('jump_frame','.save sp (-off A CC64FSZ) sp,        -- 30','.save sp (-off A 128) sp,        -- 30','C39: own frame does not overlap','jump')
m('jump_nosavefp','    .stx fp sp (BIAS + 128),             -- 34\n','','C39: fp saved','jump')
m('jump_nosavei7','    .stx (.i 7) sp (BIAS + 136),         -- 35\n','','C39: i7 saved','jump')
m('jump_switch','.add (.i 0) 0#_ sp,                  -- 40','.add (.i 1) 0#_ sp,                  -- 40','C39: switches to the context passed','jump')
m('ontop_tgt','tgt := .o 2','tgt := .o 1','C39: ontop function called','ontop')
m('ontop_o0','.restore (.o 0) 0#_ (.o 0)]          -- 42','.restore (.o 1) 0#_ (.o 0)]          -- 42','C39: first argument of the ontop function','ontop')
m('ontop_i7','.ldx sp (BIAS + 136) (.i 7),         -- 36','.ldx sp (BIAS + 136) (.i 5),         -- 36','C39: return address of ontop','ontop')
m('make_align','.and (.i 0) (-off A 0xf) (.i 0)','.and (.i 0) (-off A 0x7) (.i 0)','C39: alignment','make')
m('make_size','.add (.i 0) (-off A (2 * CC64FSZ)) (.i 0)','.add (.i 0) (-off A CC64FSZ) (.i 0)','C39: frame inside the stack','make')
m('make_fn','.stx (.i 2) (.i 0) (CC64FSZ + 136)','.stx (.i 1) (.i 0) (CC64FSZ + 136)','C39: entry function','make')
m('make_fnslot','.stx (.i 2) (.i 0) (CC64FSZ + 136)','.stx (.i 2) (.i 0) (CC64FSZ + 128)','C39: entry function','make')
m('make_chain','    .stx (.g 0) (.i 0) (CC64FSZ + 112),  -- 37\n','','C39: back chain ends','make')
m('make_tramp','.stx (.l 0) (.i 0) 136,              -- 46','.stx (.l 0) (.i 0) 120,              -- 46','C39: enters trampoline','make')
m('make_fp','.add (.i 0) (off A CC64FSZ - off A BIAS) (.l 0),  -- 49','.add (.i 0) (off A CC64FSZ) (.l 0),  -- 49','C39: bias of initial frame','make')
m('make_ret','delay := .restore (.i 0) (-off A BIAS) (.o 0)  -- 54','delay := .restore (.i 0) 0#_ (.o 0)  -- 54','C39: context is biased','make')
m('tramp_slot','is := [.ldx sp (BIAS + 136) (.l 0)]','is := [.ldx sp (BIAS + 128) (.l 0)]','C39: entry function','tramp')
m('tramp_link','e.tramp + off A 4','e.tramp','C39: return of entry function goes to _exit','tramp')
