MUTANTS=[]
def m(name,f,d,old,new,claim,nth=0,**k): MUTANTS.append(dict(name='l_'+name,file=f,old=old,new=new,nth=nth,definition=d,claim=claim,**k))
MA='Asm/Many.lean'; FO='Link/Follow.lean'; PR='Link/Prims.lean'; MO='Fiber/Model.lean'; RO='Link/Round.lean'; MC='Link/Machine.lean'
m('run_unrestricted',MA,'Many.Step.run','(∀ i x a, c.ctx i = some x → held P e x a → s\'.mem a = c.s.mem a) → Step X e c .run','True → Step X e c .run','C40: saved frames must not be overwritten')
m('run_susp_only',MA,'Many.held','| .fresh σ, a => InR a (P.resM (exec e P.make σ).1) P.mkeep','| .fresh σ, a => False','C40: data of new contexts must not be overwritten')
m('stack_overlap',MA,'Many.Step.make','¬ live c j → (∀ i a, live c i → c.stk i a → ¬ R a) → (∀ a, R a → ¬ X.null a) →\n      (∀ a, InR a (P.resM','¬ live c j → (∀ a, R a → ¬ X.null a) →\n      (∀ a, InR a (P.resM','C40: stacks disjoint')
m('spawn_overlap',MA,'Many.Step.spawn','¬ live c j → (∀ i a, live c i → c.stk i a → ¬ R a) →\n      (∀ a, R a → ¬ X.null a) → t ≠','¬ live c j →\n      (∀ a, R a → ¬ X.null a) → t ≠','C40: stacks of threads disjoint')
m('sched_regs',MA,'Many.Step.sched','Step X e c (.sched i) { c with thr := t, cur := i, s := ⟨g, q, c.s.mem⟩','Step X e c (.sched i) { c with thr := t, cur := i, s := c.s','C80: threads have their own registers')
m('sched_thr',MA,'Many.Step.sched','{ c with thr := t, cur := i, s := ⟨g','{ c with cur := i, s := ⟨g','C80: which thread runs')
m('sched_forget',MA,'Many.Step.sched','if k = c.cur then some (.par c.thr c.s.gpr c.s.fpr) else if k = i then none else c.ctx k','if k = i then none else c.ctx k','C80: the other thread still runs its context')
m('spawn_same_thread',MA,'Many.Step.spawn','t ≠ c.thr → (∀ k g q, c.ctx k ≠ some (.par t g q)) →','','(environment restriction only)')
m('switch_keep',MA,'Many.switch','if k = c.cur then some (.susp c.s) else if k = i then none else c.ctx k','if k = c.cur then none else if k = i then none else c.ctx k','C40: the left context is suspended',)
m('call_off_stack',MA,'Many.CallOk','foot : ∀ a, InR a (P.fctx c.s) X.fp → c.stk c.cur a\n','foot : True\n','C40: calls on own stack')
m('arg_wrong',FO,'FStep.jump','| jump {c E f back} : P.argF c.s = E f → CallOk X c','| jump {c E f back} : CallOk X c','C80: the address passed is that of the handle')
m('enc_wrong',FO,'FStep.jump','(Many.switch c f.ctx (landed P e c f.ctx)) (E.set back (P.fctx c.s))','(Many.switch c f.ctx (landed P e c f.ctx)) (E.set f (P.fctx c.s))','C80: address of the handle given up')
m('last_not_dropped',FO,'FStep.last','ctx := fun k => if k = c.cur then none else (Many.switch','ctx := fun k => if k = c.cur then (Many.switch c f.ctx (exec e P.ontop c.s).1).ctx k else (Many.switch','C80: an ended context is not suspended')
m('make_reuses',FO,'FStep.make','| make {c E n} (R : A.W → Prop) : (∀ i a, live c i → c.stk i a → ¬ R a) →','| make {c E n} (R : A.W → Prop) :','C80: the new stack is free')
m('landed_stub',FO,'landed','| some (.fresh _) => (P.enter e c.s).1','| some (.fresh _) => (exec e P.jump c.s).1','C80: the context function is entered')
m('seq_const',MO,'Fiber.State.switch','seq := upd s.seq c (s.seq c + 1)','seq := s.seq','C80: a handle names one suspension')
m('back_target',MO,'Fiber.State.switch','⟨c, s.seq c + 1⟩','⟨f.ctx, s.seq c + 1⟩','C80: the handle delivered is that of the context left')
m('resume_ontop',MO,'Fiber.State.doResume','s.jump t f','s.ontopSwitch t f .suspended','C80: resume is a jump')
m('with_jump',MO,'Fiber.State.doResumeWith','s.ontopSwitch t f .suspended','s.jump t f','C80: resume_with is an on-top call')
m('finish_suspended',MO,'Fiber.State.finish','match s.ontopSwitch t f .terminated with','match s.ontopSwitch t f .suspended with','C80: an ended context is not suspended')
m('create_no_back',MO,'Fiber.State.doCreate','.raw','.suspended','C80: creation makes a new context')
m('set_all',MC,'Enc.set','if x = f then w else E x','w','C80: addresses of other handles stay')
m('abs_noaddr',MC,'CtxAbs','s.status i = .suspended ∧ E ⟨i, s.seq i⟩ = P.fctx σ ∧','s.status i = .suspended ∧','C80: the address of a handle is that of the saved frame')
