MUTANTS=[]
def m(name,F,d,old,new,claim,nth=0,**k): MUTANTS.append(dict(name='m_'+name,file=F,old=old,new=new,nth=nth,definition=d,claim=claim,**k))
L='Mem/Layout.lean';A='Mem/Alloc.lean';P='Mem/Pool.lean';S='Mem/Shadow.lean';T='Mem/Traits.lean';Z='Detail/Schwarz.lean';H='Detail/Helpers.lean'
m('mask7f',L,'create1','(sctx.sp - n) &&& ~~~ BitVec.ofNat w 0xff','(sctx.sp - n) &&& ~~~ BitVec.ofNat w 0x7f','C41: 256-aligned')
m('gap_plus',L,'create1','let stack_top := storage - BitVec.ofNat w 64','let stack_top := storage + BitVec.ofNat w 64','C41: gap')
m('no_n',L,'create1','(sctx.sp - n) &&&','sctx.sp &&&','C41: record inside the stack')
m('bottom_sp',L,'create1','let stack_bottom := sctx.sp - sctx.size','let stack_bottom := sctx.sp','C41: size')
m('size_storage',L,'create1','size := stack_top - stack_bottom, sctx := sctx }','size := storage - stack_bottom, sctx := sctx }','C41: size excludes the gap')
m('c2_uses_sctx_sp',L,'create2','let storage := (palloc.sp - n)','let storage := (palloc.sctx.sp - n)','C47: part reserved by the user untouched')
m('c2_size',L,'create2','let stack_bottom := palloc.sctx.sp - palloc.sctx.size','let stack_bottom := palloc.sp - palloc.size','C47: bottom')
m('c2_sctx',L,'create2','size := stack_top - stack_bottom, sctx := palloc.sctx }','size := stack_top - stack_bottom, sctx := ⟨palloc.size, palloc.sp⟩ }','C47: stack_context stored unchanged')
m('u1_no_gap',L,'ucreate1','let ss_size := storage - stack_bottom - BitVec.ofNat w 64','let ss_size := storage - stack_bottom','C41: ucontext the same')
m('u2_bottom',L,'ucreate2','let stack_bottom := palloc.sctx.sp - palloc.sctx.size\n  let ss_size','let stack_bottom := palloc.sp - palloc.sctx.size\n  let ss_size','C47: ucontext the same')
m('no_guard_page',A,'protSize','(pages + 1#w) * page','pages * page','C43: one page more than requested')
m('round_down',A,'protSize','let pages := (size + page - 1#w) / page','let pages := size / page','C43: at least the size')
m('round_extra',A,'protSize','let pages := (size + page - 1#w) / page','let pages := (size + page) / page','C43: size rounded up')
m('fixed_request',A,'Kind.request','| .fixed => size\n','| .fixed => size - 1#w\n','C42: stack_context describes the requested size')
m('map_request',A,'Kind.request','| .fixedMap => size\n','| .fixedMap => protSize size page\n','C42: requested size')
m('win_request',A,'Kind.request','| .winProt => protSize size page','| .winProt => size','C43')
m('prot_wrong_end',A,'allocate','| .prot, true => s.protect vp page .none','| .prot, true => s.protect (vp + len - page) page .none','C43: guard page at the low end')
m('prot_all',A,'allocate','| .prot, true => s.protect vp page .none','| .prot, true => s.protect vp len .none','C43: rest accessible')
m('win_noguard',A,'allocate','| .winProt, true => s.protect vp page .guard','| .winProt, true => s','C43')
m('sp_low',A,'allocate','sp := vp + len })','sp := vp })','C42: sp at the upper end')
m('size_less_page',A,'allocate','{ size := len, sp','{ size := len - page, sp','C42: describes the region')
m('dealloc_sp',A,'deallocate','let vp := sctx.sp - sctx.size\n','let vp := sctx.sp\n','C42: pointer handed back')
m('munmap_size',A,'deallocate','s.put k.sys vp sctx.size','s.put k.sys vp (sctx.size - 1#w)','C42: size handed back')
m('init_zero',P,'init','count := 0 + 1','count := 0','C45')
m('addref_missing',P,'addRef','count := s.count + 1','count := s.count','C45')
m('release_compare',P,'release','deleting := if 0 = n then','deleting := if 0 = s.count then','C45: deleted when the last copy is gone')
m('release_nodec',P,'release','let n := s.count - 1','let n := s.count','C45')
m('release_at_one',P,'release','deleting := if 0 = n then','deleting := if n ≤ 1 then','C45: not deleted while copies exist')
m('ss_swap',S,'ssExit','(ss_base, ss_size)','(ss_size, ss_base)','C46')
m('ss_exit_off',S,'ssExit','load m (rec - 16#64)','load m (rec - 24#64)','C46')
m('ss_create_off',S,'ssCreate','(p.storage - 16#64) X.k ss_size','(p.storage - 12#64) X.k ss_size','C46: slots overlap')
m('ss_base_sp',S,'ssCreate','(p.storage - 8#64) X.k base','(p.storage - 8#64) X.k ss_sp','C46: base unmapped')
m('ss_min',S,'ssSize','if ss_size > 4096#64 then size else 4096#64','if ss_size < 4096#64 then size else 4096#64','C46: sufficient')
m('ss_fixed',S,'ssSize','if ss_size > 4096#64 then size else','if ss_size > 4096#64 then ss_size else','C46 exact behaviour (oversized)')
m('page_not_cached',T,'pageSize','| some v => (s, v)\n  | none => ({ s with page := some','| some v => ({ s with page := some (BitVec.ofInt w ans) }, BitVec.ofInt w ans)\n  | none => ({ s with page := some','C44: constant')
m('limit_not_cached',T,'limit','| none => ({ s with limit := some ans }, ans)','| none => (s, ans)','C44: constant')
m('assert_inverted',T,'call','if rlimInfinity == v then (s, .assertion)','if rlimInfinity != v then (s, .assertion)','C44: asserts iff unbounded')
m('unbounded_inverted',T,'call','.unbounded (rlimInfinity == v)','.unbounded (rlimInfinity != v)','C44')
m('maximum_page',T,'call','(s, .maximum (v.setWidth w))','(s, .maximum ((v + 1#64).setWidth w))','C44: maximum_size is the limit')
m('default_small',T,'defaultSize','128 * 1024','64 * 1024','C44: minimum <= default')
m('ctor_cmp',Z,'ctor','if 0 = old then','if 1 = old then','C28: created at 0 to 1')
m('dtor_cmp',Z,'dtor','if 0 = x.counter then','if 1 = x.counter then','C28: deleted at 1 to 0')
m('ctor_always',Z,'ctor','if 0 = old then','if 0 ≤ old then','C28: created once')
m('dtor_always',Z,'dtor','if 0 = x.counter then','if 0 ≤ x.counter then','C28: not deleted while needed')
m('ctor_noinc',Z,'ctor','counter := old + 1','counter := old','C28')
m('tail_idx',H,'tailL','let idx := (indices s.length).length - (indices n).length','let idx := (indices s.length).length - (indices n).length - 1','C50: tail')
m('tailR_idx',H,'tailR','let idx := (indices s.length).length - (indices n).length','let idx := 0','C50: nothing moved twice',nth=1)
m('head_assert',H,'headL','if n ≤ s.length then buildL','if n < s.length then buildL','C50: head of the whole tuple')
m('apply_drop',H,'apply','indices tpl.length','indices (tpl.length - 1)','C50: apply')
m('getR_nomove',H,'getR','s.set i .moved','s','C50: move leaves source moved-from')
m('invoke_first',H,'invoke','if !c.isMember then (match','if c.isMember then (match','C51: exactly one overload viable')
m('memfn_all',H,'memFn','| .memFn f, some r => some (f r.obj a.rest)','| .memFn f, some r => some (f r.obj a.all)','C51')
m('invoke_lvalue',H,'invoke','(f rv a.all)','(f false a.all)','C51: value category kept',)
m('exchange_new',H,'exchange','(ov, m)\n','(x, m)\n','C52: returns the old value')
m('exchange_noassign',H,'exchange','let m := fun a => if a = t then x else m a','let m := fun a => if a = t then ov else m a','C52: stores the new one')
m('stride',H,'stride','4 * 64','4 * 32','C53 (constant of detail/config.hpp)')
m('prefetch_le',H,'Loop','| done {vp} : ¬ vp < e → Loop e vp []\n  | step {vp l} : vp < e','| done {vp} : ¬ vp ≤ e → Loop e vp []\n  | step {vp l} : vp ≤ e','C53: only addresses below the end')
m('pack_shift',H,'packHigh','record >>> 32','record >>> 31','C48')
m('unpack_swap',H,'unpack','(high.setWidth 64 <<< 32) ||| low.setWidth 64','(low.setWidth 64 <<< 32) ||| high.setWidth 64','C48')
B='Backends/Spec.lean'
m('bk_swallow',B,'Allowed','| .swallow => False\n','| .swallow => True\n','C27: rule needed')
m('bk_caps',B,'Allowed','| .create xs _ => xs = []','| .create xs _ => xs.length ≤ 1','C27: rule needed')
m('bk_resume',B,'Allowed','| .resume _ => MaySwitch s t\n','| .resume _ => True\n','C27: rule needed')
m('bk_started',B,'Allowed','MaySwitch s t ∧ Started s x','MaySwitch s t ∧ True','C27: rule needed')
m('bk_drop',B,'Allowed','| .drop x => MayDestroy s x','| .drop _ => True','C27: rule needed')
m('bk_ontop_throw',B,'Allowed','[] (.unwinding _) :: _ => False ','[] (.unwinding _) :: _ => True ','C27: rule needed')
m('bk_root',B,'MayDestroy','.alloc f.ctx ∈ s.log ∧ s.frames f.ctx ≠ [.entryJump]','s.frames f.ctx ≠ [.entryJump]','C27: rule needed')
m('bk_ontop_switch',B,'MaySwitch','¬ BeingUnwound (s.frames c) ∧ ¬ InOntop (s.frames c)','¬ BeingUnwound (s.frames c) ∧ (InOntop (s.frames c) → True)','C27: rule needed')

V='Mem/Valgrind.lean'
m('vg_swap',V,'VG.register','⟨id, sctx.sp, vp⟩ :: v.regs','⟨id, vp, sctx.sp⟩ :: v.regs','C85: registered range is the stack')
m('vg_size',V,'VG.register','⟨id, sctx.sp, vp⟩ :: v.regs','⟨id, sctx.sp - sctx.size, vp⟩ :: v.regs','C85: registered range is the stack')
m('vg_id0',V,'VG.register','⟨id, sctx.sp, vp⟩ :: v.regs','⟨0, sctx.sp, vp⟩ :: v.regs','C85: under the id kept with the stack')
m('vg_noreg',V,'VG.register','{ v with regs := ⟨id, sctx.sp, vp⟩ :: v.regs }','v','C85: every outstanding stack is registered')
m('vg_dereg0',V,'VHist.deregister','VHist page s (v.deregister id) (l₁','VHist page s (v.deregister 0) (l₁','C85: withdrawn by its id')
m('vg_nodereg',V,'VHist.deregister','VHist page s (v.deregister id) (l₁','VHist page s v (l₁','C85: withdrawn before the memory is given back')
m('vg_late',V,'VHist.put','(o.phase = .withdrawn ∨ o.phase = .plain','(o.phase = .withdrawn ∨ (∃ id, o.phase = .held id) ∨ o.phase = .plain','C85: withdrawn before the memory is given back')
m('vg_win',V,'Kind.registers','| .winProt => false','| .winProt => true','C85: Windows allocator never registers')
m('vg_fixed',V,'Kind.registers','| .fixed => true','| .fixed => false','C85: every outstanding stack is registered')
m('vg_prot',V,'Kind.registers','| .prot => true','| .prot => false','C85: every outstanding stack is registered')

R='Mem/Record.lean'
m('rec_dtor_order',R,'Step.destroyRecord','Step s { (s.needs p).dropObj r with stk := upd s.stk k (.giving p l) }','Step s { (s.needs p).dropObj l with stk := upd s.stk k (.giving p l) }','C89: the local allocator outlives the record')
m('rec_dtor_copy',R,'Step.destroy','{ (s.needs p).moveObj (.localOf k) r (.member k) with','{ (s.needs p).dropObj r with','C89: the allocator is taken out of the record before the record is destroyed')
m('rec_give_member',R,'Step.give','Step s { s.deallocate l k p with','Step s { s.deallocate (l - 1) k p with','C89: the stack is given back through the local allocator')
m('rec_noleave',R,'Step.leave','Step s { s.dropObj l with stk','Step s { s with stk','C89: nothing leaks')
m('rec_release_le',R,'St.release','if s.count p - 1 = 0 then','if s.count p - 1 ≤ 1 then','C89: alive as long as somebody refers to it')
m('rec_release_never',R,'St.release','pool := upd s.pool p .deleted }','pool := s.pool }','C89: nothing leaks')
m('rec_noaddref',R,'St.addRef','upd s.count p (s.count p + 1)','upd s.count p (s.count p)','C89: a copy counts')
m('rec_move_keeps',R,'St.moveObj','upd (upd s.obj i (.live oi none)) s.nObj','upd (upd s.obj i (.live oi (s.val i))) s.nObj','C89: moved-from allocator has no storage')
m('rec_move_null',R,'St.moveObj','s.nObj (.live o (s.val i)), nObj','s.nObj (.live o none), nObj','C89: the record has the storage')
m('rec_copy_null',R,'St.copyObj','upd s.obj s.nObj (.live o (s.val i))','upd s.obj s.nObj (.live o none)','C89: the copy has the storage')
m('rec_ctor_nocopy',R,'Step.construct','else s.copyObj (.member k) u).needs p','else s.moveObj (.member k) u .user).needs p','C89: lvalue allocator stays usable')
m('rec_fail_nodrop',R,'Step.failed','Step s { (s.needs p).dropObj r with stk := upd s.stk k (.failing2 p u rv) }','Step s { s.needs p with stk := upd s.stk k (.failing2 p u rv) }','C89: failed creation leaves no record')
m('rec_fail_nodealloc',R,'Step.failed2','Step s { s.deallocate u k p with stk := upd s.stk k (.returned p) }','Step s { s with stk := upd s.stk k (.returned p) }','C89: with an rvalue the failure is undefined (bug fixed)')
m('rec_user_moves',R,'Step.move','s.obj u = .live .user v → Free s u → Step s (s.moveObj','s.obj u = .live .user v → Step s (s.moveObj','C89: user code may not move an allocator that is in use')
m('rec_user_drops',R,'Step.drop','s.obj u = .live .user v → Free s u → Step s (s.dropObj','s.obj u = .live .user v → Step s (s.dropObj','C89: user code may not destroy an allocator that is in use')
m('rec_rv_shared',R,'Step.create1','(if rv then Free s u else Shared s u) →','Shared s u →','C89: an rvalue allocator is used by one creation')
m('rec_preall_other',R,'Step.create2','s.stk k = .held p v → Mine s u p →','s.stk k = .held p v → (∃ q, Mine s u q) →','C89: allocator of the same storage')
m('rec_give_not',R,'Step.give','Step s { s.deallocate l k p with stk','Step s { s with stk','C89: each stack is given back')
m('rec_give_twice',R,'Step.leave','Step s { s.dropObj l with stk','Step s { (s.deallocate l k p).dropObj l with stk','C89: each stack is given back once')
m('rec_give_other',R,'Step.give','Step s { s.deallocate l k p with stk','Step s { s.deallocate l 0 p with stk','C89: the stack of the context is given back')
