MUTANTS=[]
W='import Verif.Hooks.Winfib\nimport Verif.Hooks.Tsan\nimport Verif.Hooks.Split\nimport Verif.Hooks.Mask'
def m(f,name,d,old,new,claim,nth=0,**k): MUTANTS.append(dict(name='hk_'+name,file='Hooks/'+f+'.lean',old=old,new=new,nth=nth,definition='Hooks.'+d,claim=claim,**k))
S='Split'
m(S,'split_no_get','Split.ev','let h := { h with sctx := upd h.sctx c (h.thr t) }\n','let h := h\n','C72: getcontext dropped')
m(S,'split_no_set','Split.ev','{ h with thr := upd h.thr t (h.sctx w) }','h','C72: setcontext dropped')
m(S,'split_get_target','Split.ev','upd h.sctx c (h.thr t)','upd h.sctx w (h.thr t)','C72: saved into the target')
m(S,'split_swapped','Split.ev','let h := { h with sctx := upd h.sctx c (h.thr t) }\n    { h with thr := upd h.thr t (h.sctx w) }','let h := { h with thr := upd h.thr t (h.sctx w) }\n    { h with sctx := upd h.sctx c (h.thr t) }','C72: order of get and set swapped')
m(S,'split_make_lost','Split.ev','| .create n a => { h with sctx := upd h.sctx n (some a) }','| .create _ _ => h','C72: makecontext result not stored')
m(S,'split_no_release','Split.ev','| .free n => { h with rel := (n, h.sctx n) :: h.rel }','| .free _ => h','C72: not released')
m(S,'split_release_null','Split.ev','rel := (n, h.sctx n) :: h.rel','rel := (n, none) :: h.rel','C72: wrong context released')
m(S,'split_release_twice','Split.ev','rel := (n, h.sctx n) :: h.rel','rel := (n, h.sctx n) :: (n, h.sctx n) :: h.rel','C72: released twice')
A='Asan'
m(A,'asan_left_tested','Asan.ev','!fn && h.term w then','!fn && h.term c then','C73_never_destroyed (the defect repaired)')
m(A,'asan_start_saves_target','Asan.ev','none else some c) (h.bot w)','none else some w) (h.bot w)','C73: fake stack saved in the wrong record')
m(A,'asan_own_bounds','Asan.ev','none else some c) (h.bot w)','none else some c) (h.bot c)','C73: bounds of the wrong record')
m(A,'asan_no_finish','Asan.ev','    finish h t w c\n','    h\n','C73: finish missing')
m(A,'asan_finish_wrong','Asan.ev','    finish h t w c\n','    finish h t c w\n','C73: finish with the wrong records')
m(A,'asan_finish_bounds_self','Asan.ev','    finish h t w c\n','    finish h t w w\n','C73: bounds of the previous stack stored in the wrong record')
m(A,'asan_always_destroy','Asan.ev','(if !fn && h.term w then none else some c)','none','C73: fake stack destroyed at every switch')
m(A,'asan_no_bounds','Asan.ev','| .create n a => { h with bot := upd h.bot n a.1, fake','| .create n _ => { h with fake','C73: bounds not set at creation')
T='Tsan'
m(T,'tsan_no_create','Tsan.ev','fib := upd h.fib n (some h.next), flag := upd h.flag n true','fib := upd h.fib n none, flag := upd h.flag n true','C74: no fiber object created')
m(T,'tsan_flag_thread','Tsan.ev','flag := upd h.flag n false','flag := upd h.flag n true','C74: thread object destroyed')
m(T,'tsan_flag_ctx','Tsan.ev','flag := upd h.flag n true','flag := upd h.flag n false','C74: object of a context not destroyed')
m(T,'tsan_switch_self','Tsan.ev','upd h.tf t (h.fib w)','upd h.tf t (h.fib c)','C74: switch to own object')
MUTANTS[-1]['old']='| .switch t _ w _ _ => { h with tf := upd h.tf t (h.fib w) }'; MUTANTS[-1]['new']='| .switch t c _ _ _ => { h with tf := upd h.tf t (h.fib c) }'
m(T,'tsan_no_switch','Tsan.ev','| .switch t _ w _ _ => { h with tf := upd h.tf t (h.fib w) }','| .switch _ _ _ _ _ => h','C74: switch not announced')
m(T,'tsan_no_destroy','Tsan.dtor','if h.flag n then { h with destroyed := h.fib n :: h.destroyed } else h','h','C74: never destroyed')
m(T,'tsan_inverted','Tsan.dtor','if h.flag n then','if !h.flag n then','C74: flag inverted')
M='Mask'
m(M,'mask_no_save','Mask.ev','let h := { h with uc := upd h.uc c (h.thr t) }\n','let h := h\n','C87: mask not saved (setcontext instead of swapcontext)')
m(M,'mask_no_install','Mask.ev','{ h with thr := upd h.thr t (h.uc w) }','h','C87: mask not installed (_longjmp)')
m(M,'mask_swapped','Mask.ev','let h := { h with uc := upd h.uc c (h.thr t) }\n    { h with thr := upd h.thr t (h.uc w) }','let h := { h with thr := upd h.thr t (h.uc w) }\n    { h with uc := upd h.uc c (h.thr t) }','C87: swapcontext with the arguments the wrong way round')
m(M,'mask_no_getcontext','Mask.ev','| .create n a => { h with uc := upd h.uc n (some a) }','| .create _ _ => h','C87: getcontext missing at creation')
m(M,'mask_save_target','Mask.ev','upd h.uc c (h.thr t)','upd h.uc w (h.thr t)','C87: saved into the wrong record')
m(M,'mask_env','Mask.FTrace','(run tr).thr t = some a → FTrace s\' (events','FTrace s\' (events','C87_fiber_inherits: mask at creation arbitrary')
F='Winfib'
m(F,'wf_delete_main','Winfib.dtor','if h.main n then','if !h.main n then','C75: main_ctx test inverted')
m(F,'wf_no_delete','Winfib.dtor','else { h with deleted := h.fib n :: h.deleted }','else h','C75: DeleteFiber missing')
m(F,'wf_no_convert','Winfib.dtor','| some t => { h with cur := upd h.cur t none }','| some _ => h','C75: ConvertFiberToThread missing')
m(F,'wf_main_flag','Winfib.ev','main := upd h.main n false, next','main := upd h.main n true, next','C75: main_ctx not cleared')
m(F,'wf_thread_flag','Winfib.ev','main := upd h.main n true, next','main := upd h.main n false, next','C75: main_ctx not set')
m(F,'wf_fiber_lost','Winfib.ev','fib := upd h.fib n (if a then some h.next else none)','fib := h.fib','C75: CreateFiber result not stored')
m(F,'wf_thread_lost','Winfib.ev','fib := upd h.fib n (some h.next), main','main','C75: fiber of the thread not stored')
m(F,'wf_no_switch','Winfib.ev','| some f => { h with cur := upd h.cur t (some f) }','| some _ => h','C75: SwitchToFiber missing')
m(F,'wf_null_ok','Winfib.ev','| none => { h with bad := true }','| none => h','C75_create_unchecked (the defect absent)')
