# machines of C40 (Many, ManySparc), C82 (Micro) and stack placement (C83)
MUTANTS=[]
def m(name,file,d,old,new,claim,nth=0): MUTANTS.append(dict(name='mc_'+name,file=file,old=old,new=new,nth=nth,definition=d,claim=claim))
L='Mem/Layout.lean'
m('gap0',L,'create1','let stack_top := storage - BitVec.ofNat w 64','let stack_top := storage - BitVec.ofNat w 0','C41/C83: gap below the control block')
m('gap32',L,'create1','let stack_top := storage - BitVec.ofNat w 64','let stack_top := storage - BitVec.ofNat w 32','C41/C83: gap below the control block')
m('nosize',L,'create1','let storage := (sctx.sp - n) &&&','let storage := sctx.sp &&&','C41/C83: control block inside the stack')
m('pre_sctx',L,'create2','let storage := (palloc.sp - n) &&&','let storage := (palloc.sctx.sp - n) &&&','C47/C83: reserved part untouched')
m('pre_gap',L,'create2','let stack_top := storage - BitVec.ofNat w 64','let stack_top := storage','C47/C83: gap',1)
S='Asm/ManySparc.lean'
m('sp_keep',S,'Many.held','| .susp σ N, a => Keep σ N a','| .susp σ N, a => Frame σ a','C40: callers\' activations survive')
m('sp_fresh',S,'Many.held','| .fresh _ σ, a => CData σ a','| .fresh _ σ, a => False','C40: new contexts survive')
m('sp_same',S,'Many.Same','e.tramp = b.tramp ∧ e.one = b.one','e.one = b.one ∧ e.one = b.one','C40: a new context enters its function through the stub of its own program')
m('sp_makeR',S,'Many.Step','(∀ a, CData c.s a → R a) → OnStack c N →','(∀ a, CData c.s a → R a ∨ True) → OnStack c N →','C40: stacks disjoint')
m('sp_lost',S,'Many.switch','if k = c.cur then some (.susp c.s N)','if k = i then some (.susp c.s N)','C40: the context left is the one that is suspended')
m('sp_first',S,'Many.Step','c.s.o 0 = fctx σ → CallOk c N →\n      Step b c (.jump i)','c.s.o 1 = fctx σ → CallOk c N →\n      Step b c (.jump i)','C40: the context passed is the one that runs')
m('sp_area',S,'Many.OnStack','∀ n ≤ N, ∀ a, Area c.s n a','∀ n < N, ∀ a, Area c.s n a','C40: save areas are on the stack of the context')
m('sp_nofr',S,'Many.CallOk','∀ a, Frame c.s a → c.stk c.cur a','∀ a, Area c.s 0 a → c.stk c.cur a','C40: the frame is on the stack of the context')
N='Asm/Many.lean'
m('mn_keep',N,'Many.held','| .susp σ, a => InR a (P.fctx σ) P.keep','| .susp σ, a => InR a (P.fctx σ) (P.keep - 1)','C40: saved frames survive')
m('mn_fresh',N,'Many.held','| .fresh σ, a => InR a (P.resM (exec e P.make σ).1) P.mkeep','| .fresh σ, a => InR a (P.resM (exec e P.make σ).1) (P.mkeep / 2)','C40: new contexts survive')
m('mn_foot',N,'Many.CallOk','foot : ∀ a, InR a (P.fctx c.s) X.fp → c.stk c.cur a','foot : ∀ a, InR a (c.s.gpr P.sp) X.fp → c.stk c.cur a','C40: frames on own stack')
m('mn_arg',N,'Many.Step','c.ctx i = some (.susp σ) → P.argF c.s = P.fctx σ → CallOk X c →\n      Step X e c (.jump i)','c.ctx i = some (.susp σ) → P.argD c.s = P.fctx σ → CallOk X c →\n      Step X e c (.jump i)','C40: identity')
m('mn_thr',N,'Many.Step','s := ⟨g, q, c.s.mem⟩','s := ⟨c.s.gpr, q, c.s.mem⟩','C40: each thread has its own registers')
U='Asm/Micro.lean'
m('mi_jmp',U,'Micro.mic','| .jmp [] _ :: c :: cs, s => some (c :: cs, s)','| .jmp [] _ :: c :: cs, s => some (cs, s)','C82: no routine is skipped')
m('mi_brz',U,'Micro.mic','some ((if s.gpr r = 0#_ then z else nz) :: cs, s)','some ((if s.gpr r = 0#_ then nz else z) :: cs, s)','C82: branches')
m('mi_acc',U,'Micro.micAcc','| .brz (i :: _) _ _ _ :: _, s => i.acc x s','| .brz (i :: _) _ _ _ :: _, s => fun _ => False','C82: accesses before a branch')
m('mi_claim',U,'MStep.call','→ ¬ Claimed M k →','→ (¬ Claimed M k ∨ True) →','C82: two threads switch to one context')
m('mi_race',U,'MStep.run','(∀ j x a, M.ctx j = some x → used X D e x a → m\' a = M.mem a) →','(∀ j x a, M.ctx j = some x → used X D e x a → j = i ∨ m\' a = M.mem a) →','C82 (user code of a running context may only write its own bytes: equivalent?)')
m('mi_sw',U,'MStep.switch','ctx := upd (upd M.ctx k (some (.user t r))) i (some (.susp (P.fctx σ)))','ctx := upd (upd M.ctx k (some (.user t r))) i (some (.susp (P.argF σ)))','C82: identity of the context left')

