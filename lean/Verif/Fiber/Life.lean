import Verif.Fiber.PoolExit

/-!
# C95: a whole program

Any number of fibers are created, suspend, and end in any order, each handing control to the next; at the end main runs again and every stack has been given back.
-/

namespace Verif.Fiber
open State

theorem chain_exists {s : State} : ∀ p : List Var, (∀ x ∈ p, ∃ d, Designates s x d) → ∃ ds, Chain s p ds
  | [], _ => ⟨[], trivial⟩
  | x :: p, h => by
    obtain ⟨d, hd⟩ := h x List.mem_cons_self
    obtain ⟨ds, hds⟩ := chain_exists p fun y hy => h y (List.mem_cons_of_mem _ hy)
    exact ⟨d :: ds, hd, hds⟩

theorem Chain.append {s : State} : ∀ {p q : List Var} {ds es : List CtxId}, Chain s p ds → Chain s q es → Chain s (p ++ q) (ds ++ es)
  | [], _, [], _, _, h => h
  | _ :: _, _, _ :: _, _, h, h' => ⟨h.1, h.2.append h'⟩

theorem Chain.mem {s : State} {d : CtxId} : ∀ {p : List Var} {ds : List CtxId}, Chain s p ds → (d ∈ ds ↔ ∃ x ∈ p, Designates s x d)
  | [], [], _ => by simp
  | x :: p, e :: ds, h => by
    rw [List.mem_cons, h.2.mem]
    constructor
    · rintro (rfl | ⟨y, hy, hd⟩)
      · exact ⟨x, List.mem_cons_self, h.1⟩
      · exact ⟨y, List.mem_cons_of_mem _ hy, hd⟩
    · rintro ⟨y, hy, hd⟩
      rcases List.mem_cons.1 hy with rfl | hy
      · obtain ⟨f, hf, rfl⟩ := h.1
        obtain ⟨g, hg, rfl⟩ := hd
        rw [hf] at hg; cases hg; exact .inl rfl
      · exact .inr ⟨y, hy, hd⟩

/-- as `C95_any_number`; moreover every fiber can end -/
theorem pool_canEnd (n : Nat) : ∃ s X b, Reachable s ∧ Pool s 0 X b 0 ∧ X.Nodup ∧ X.length = n ∧ s.nextCtx = n + 1 ∧ (∀ d, Member s X 0 d ↔ d ≤ n) ∧
    ∀ e, 0 < e → e ≤ n → (b e).1 = .fn ∧ (b e).2.2 = [.entryRun] ∧ (∀ y ∈ (b e).2.1, y < s.nextVar ∧ s.val y = none) ∧ s.caps e = [] := by
  induction n with
  | zero =>
    refine ⟨init, [], fun _ => (.main, [], []), .init, ⟨⟨rfl, rfl⟩, by simp⟩, List.nodup_nil, rfl, rfl, fun d => ?_, fun e h1 h2 => absurd h1 (Nat.not_lt.2 h2)⟩
    simp [Member]
  | succ n ih =>
    obtain ⟨s, X, b, h, hp, hnd, hl, hc, hm, hE⟩ := ih
    obtain ⟨s', b', hr, hp', hv, hXv, hm', hc', g1, g2, g3, g4, g5⟩ := pool_grow h hp
    refine ⟨s', (s.nextVar + 2) :: X, b', (steps_run hr).reachable h, hp', List.nodup_cons.2 ⟨fun hmem => ?_, hnd⟩, by simp [hl], by rw [hc', hc], fun d => ?_, fun e he1 he2 => ?_⟩
    · exact absurd (hXv _ hmem) (Nat.not_lt.2 (Nat.le_add_right _ 2))
    · rw [hm' d, hm d, hc]
      constructor
      · rintro (rfl | h)
        · exact Nat.le_refl _
        · exact Nat.le_succ_of_le h
      · intro h
        rcases Nat.lt_or_ge n d with h1 | h1
        · exact .inl (Nat.le_antisymm h h1)
        · exact .inr h1
    · by_cases hen : e = n + 1
      · rw [← hc] at hen; subst hen
        rw [g1]
        refine ⟨rfl, rfl, fun y hy => ?_, by rw [g5]; exact (reachable_inv h).oi.capsA _ (Nat.le_refl _)⟩
        cases List.mem_singleton.1 hy
        exact ⟨by rw [hv]; exact Nat.add_lt_add_left (by decide) _, g2⟩
      · obtain ⟨q1, q2, q3, q4⟩ := hE e he1 (Nat.le_of_lt_succ (Nat.lt_of_le_of_ne he2 hen))
        rw [g3 e (by rw [hc]; exact hen) (Nat.ne_of_gt he1)]
        exact ⟨q1, q2, fun y hy => ⟨by rw [hv]; exact Nat.lt_of_lt_of_le (q3 y hy).1 (Nat.le_add_right _ 3), by rw [g4 y (q3 y hy).1]; exact (q3 y hy).2⟩, by rw [g5]; exact q4⟩

/-- **C95** For every number of fibers and every order in which they are to end there is a program that creates them, lets each start and suspend, and then lets them end in this order: main resumes the first; each, when it
ends, returns the handle of the next, the last one that of main. At the end main runs, where it resumed the first; all fibers have ended, and their stacks have been given back, each exactly once, in the order in which they ended. -/
theorem C95_lifecycle (n : Nat) : ∃ s X b, Reachable s ∧ Pool s 0 X b 0 ∧ X.Nodup ∧ X.length = n ∧ (∀ d, Member s X 0 d ↔ d ≤ n) ∧
    ∀ (x : Var) (p : List Var), (x :: p).Perm X → ∃ d ds s', Chain s (x :: p) (d :: ds) ∧ (∀ e, e ∈ d :: ds ↔ 0 < e ∧ e ≤ n) ∧
      run s (half 0 x x s.nextVar ++ drain 0 b (p ++ [x]) d (ds ++ [0]) (s.nextVar + 1)) = .ok s' ∧ UserCode s' 0 0 (b 0).1 (b 0).2.1 (b 0).2.2 ∧ (∀ e, 0 < e → e ≤ n → s'.status e = .freed) ∧
      s'.log = ((d :: ds).map Event.dealloc).reverse ++ s.log := by
  obtain ⟨s, X, b, h, hp, hnd, hl, hc, hm, hE⟩ := pool_canEnd n
  refine ⟨s, X, b, h, hp, hnd, hl, hm, fun x p hperm => ?_⟩
  have hi := reachable_inv h
  have hXp : ∀ y, y ∈ x :: p ↔ y ∈ X := fun y => hperm.mem_iff
  have hnd' : (x :: p).Nodup := hperm.nodup_iff.2 hnd
  obtain ⟨hxp, hpn⟩ := List.nodup_cons.1 hnd'
  have hxX : x ∈ X := (hXp x).1 List.mem_cons_self
  obtain ⟨dds, hch⟩ := chain_exists (s := s) (x :: p) fun y hy => by
    obtain ⟨-, d, hd, -⟩ := hp.2 y ((hXp y).1 hy); exact ⟨d, hd⟩
  cases dds with
  | nil => exact hch.elim
  | cons d ds =>
    have hmem : ∀ e, e ∈ d :: ds ↔ 0 < e ∧ e ≤ n := fun e => by
      rw [hch.mem]
      constructor
      · rintro ⟨y, hy, hd⟩
        obtain ⟨g, hg, hge⟩ := hd
        have := ((facts hi hp.1.1).2.2.2 y g hg).2.2
        exact ⟨Nat.pos_of_ne_zero (hge ▸ this), (hm e).1 (.inr ⟨y, (hXp y).1 hy, g, hg, hge⟩)⟩
      · rintro ⟨h1, h2⟩
        rcases (hm e).2 h2 with rfl | ⟨y, hy, hd⟩
        · exact absurd h1 (Nat.lt_irrefl _)
        · exact ⟨y, (hXp y).2 hy, hd⟩
    -- main resumes the first fiber
    obtain ⟨hx1, d', hd', hr⟩ := hp.2 x hxX
    have hdd : d' = d := by
      obtain ⟨f, hf, rfl⟩ := hch.1
      obtain ⟨g, hg, rfl⟩ := hd'
      rw [hf] at hg; cases hg; rfl
    subst hdd
    have e1 := handoff_run h hp.1 hx1 hd' hr
    obtain ⟨s1, c', e2, p1, m1, -, -, v1, -, cp1, l1⟩ := C95_pool h hp [x] (fun y hy => by cases List.mem_singleton.1 hy; exact hxX)
    simp only [handoffs, List.append_nil] at e2
    have hs1 : s1 = turned s 0 0 d' x x (.user (b d').1 (b d').2.1 .normal :: (b d').2.2) := Res.ok.inj (e2.symm.trans e1)
    have hcc : c' = d' := by
      have := p1.1.1
      rw [hs1] at this; simp [turned] at this; exact this.symm
    subst hcc
    have h1 : Reachable s1 := (steps_run e2).reachable h
    have vx : s1.val x = some ⟨0, s.seq 0 + 1⟩ := by rw [hs1]; simp [turned]
    have vo : ∀ y, y ≠ x → s1.val y = s.val y := fun y hy => by rw [hs1]; simp [turned, hy]
    have nv : s1.nextVar = s.nextVar + 1 := by rw [hs1]; rfl
    have hch1 : Chain s1 (p ++ [x]) (ds ++ [0]) := (hch.2.mono fun y hy => vo y fun hh => hxp (hh ▸ hy)).append ⟨⟨_, vx, rfl⟩, trivial⟩
    have hdl : (c' :: (ds ++ [0])).dropLast = c' :: ds := by
      rw [← List.cons_append, List.dropLast_concat]
    have hgl : (c' :: (ds ++ [0])).getLast (by simp) = 0 := List.getLast_concat (l := c' :: ds) (a := (0 : Nat))
    have hval : ∀ y, y ∈ X → s.val y ≠ none := fun y hy hn => by
      obtain ⟨-, e, ⟨f, hf, -⟩, -⟩ := hp.2 y hy
      rw [hf] at hn; cases hn
    obtain ⟨s', r1, r2, -, r4, r5, -⟩ := C95_pool_drain h1 p1 (p ++ [x]) (ds ++ [0]) (fun y hy => by
        rcases List.mem_append.1 hy with hy | hy
        · exact (hXp y).1 (List.mem_cons_of_mem _ hy)
        · cases List.mem_singleton.1 hy; exact hxX)
      (List.nodup_append.2 ⟨hpn, by simp, fun a ha y hy hay => hxp (by cases List.mem_singleton.1 hy; exact hay ▸ ha)⟩) hch1 (fun e he => by
        rw [hdl, hmem] at he
        obtain ⟨q1, q2, q3, q4⟩ := hE e he.1 he.2
        refine ⟨q1, q2, fun y hy => ?_, by rw [cp1]; exact q4⟩
        have hyX : y ∉ X := fun hh => hval y hh (q3 y hy).2
        exact ⟨hyX, by rw [v1 y hyX]; exact (q3 y hy).2⟩)
    refine ⟨c', ds, s', hch, hmem, ?_, ?_, fun e h1 h2 => r4 e (by rw [hdl]; exact (hmem e).2 ⟨h1, h2⟩), ?_⟩
    · rw [run_append' e2, ← nv]; exact r1
    · have := r2.1; rw [hgl] at this; exact this
    · rw [r5, hdl, l1]

/-- the case of three fibers -/
example : ∃ s X b, Reachable s ∧ Pool s 0 X b 0 ∧ X.Nodup ∧ X.length = 3 := by
  obtain ⟨s, X, b, h1, h2, h3, h4, -⟩ := C95_lifecycle 3
  exact ⟨s, X, b, h1, h2, h3, h4⟩

/-- **C95** For every number of fibers there is a program that creates them such that then they and main can resume each other in any sequence `q`; and if after that a fiber runs, all fibers can end, in any order that begins with
this one (the order of the handles `p`, then `x0`, which designates main): all this goes through, main runs in the end, and every stack has been given back exactly once, in the order in which the fibers ended. -/
theorem C95_lifecycle_schedule (n : Nat) : ∃ s X b, Reachable s ∧ Pool s 0 X b 0 ∧ X.Nodup ∧ X.length = n ∧ (∀ d, Member s X 0 d ↔ d ≤ n) ∧
    ∀ q : List Var, (∀ x ∈ q, x ∈ X) → ∃ s1 c1, run s (handoffs 0 q s.nextVar) = .ok s1 ∧ Pool s1 0 X b c1 ∧ c1 ≤ n ∧
      (c1 ≠ 0 → ∃ x0 ∈ X, Designates s1 x0 0 ∧ ∀ p : List Var, (p ++ [x0]).Perm X → ∃ ds s', Chain s1 (p ++ [x0]) (ds ++ [0]) ∧ (∀ e, e ∈ c1 :: ds ↔ 0 < e ∧ e ≤ n) ∧
        run s1 (drain 0 b (p ++ [x0]) c1 (ds ++ [0]) s1.nextVar) = .ok s' ∧ UserCode s' 0 0 (b 0).1 (b 0).2.1 (b 0).2.2 ∧ (∀ e, 0 < e → e ≤ n → s'.status e = .freed) ∧
        s'.log = ((c1 :: ds).map Event.dealloc).reverse ++ s.log) := by
  obtain ⟨s, X, b, h, hp, hnd, hl, hc, hm, hE⟩ := pool_canEnd n
  refine ⟨s, X, b, h, hp, hnd, hl, hm, fun q hq => ?_⟩
  obtain ⟨s1, c1, e1, p1, m1, -, -, v1, -, cp1, l1⟩ := C95_pool h hp q hq
  have h1 : Reachable s1 := (steps_run e1).reachable h
  have hi1 := reachable_inv h1
  have hm1 : ∀ d, Member s1 X c1 d ↔ d ≤ n := fun d => (m1 d).trans (hm d)
  refine ⟨s1, c1, e1, p1, (hm1 c1).1 (.inl rfl), fun hc1 => ?_⟩
  rcases (hm1 0).2 (Nat.zero_le _) with h0 | ⟨x0, hx0, hd0⟩
  · exact absurd h0.symm hc1
  refine ⟨x0, hx0, hd0, fun p hperm => ?_⟩
  have hXp : ∀ y, y ∈ p ++ [x0] ↔ y ∈ X := fun y => hperm.mem_iff
  have hnd' : (p ++ [x0]).Nodup := hperm.nodup_iff.2 hnd
  have hx0p : x0 ∉ p := fun hh => (List.nodup_append.1 hnd').2.2 x0 hh x0 (List.mem_singleton.2 rfl) rfl
  obtain ⟨ds, hch⟩ := chain_exists (s := s1) p fun y hy => by
    obtain ⟨-, d, hd, -⟩ := p1.2 y ((hXp y).1 (List.mem_append_left _ hy)); exact ⟨d, hd⟩
  have hch1 : Chain s1 (p ++ [x0]) (ds ++ [0]) := hch.append ⟨hd0, trivial⟩
  have hmem : ∀ e, e ∈ c1 :: ds ↔ 0 < e ∧ e ≤ n := fun e => by
    rw [List.mem_cons, hch.mem, ← hm1]
    constructor
    · rintro (rfl | ⟨y, hy, hd⟩)
      · exact ⟨Nat.pos_of_ne_zero hc1, .inl rfl⟩
      · refine ⟨Nat.pos_of_ne_zero fun h0 => ?_, .inr ⟨y, (hXp y).1 (List.mem_append_left _ hy), hd⟩⟩
        subst h0
        obtain ⟨f, hf, hf'⟩ := hd
        obtain ⟨g, hg, hg'⟩ := hd0
        exact hx0p (hi1.vi.inj y x0 f g hf hg (hf'.trans hg'.symm) ▸ hy)
    · rintro ⟨h1, rfl | ⟨y, hy, hd⟩⟩
      · exact .inl rfl
      · rcases List.mem_append.1 ((hXp y).2 hy) with hy | hy
        · exact .inr ⟨y, hy, hd⟩
        · cases List.mem_singleton.1 hy
          obtain ⟨f, hf, rfl⟩ := hd
          obtain ⟨g, hg, hg'⟩ := hd0
          rw [hf] at hg; cases hg
          exact absurd hg' (Nat.ne_of_gt h1)
  have hdl : (c1 :: (ds ++ [0])).dropLast = c1 :: ds := by
    rw [← List.cons_append, List.dropLast_concat]
  have hgl : (c1 :: (ds ++ [0])).getLast (by simp) = 0 := List.getLast_concat (l := c1 :: ds) (a := (0 : Nat))
  have hval : ∀ y, y ∈ X → s.val y ≠ none := fun y hy hn => by
    obtain ⟨-, e, ⟨f, hf, -⟩, -⟩ := hp.2 y hy
    rw [hf] at hn; cases hn
  obtain ⟨s', r1, r2, -, r4, r5, -⟩ := C95_pool_drain h1 p1 (p ++ [x0]) (ds ++ [0]) (fun y hy => (hXp y).1 hy) hnd' hch1 (fun e hel => by
      rw [hdl, hmem] at hel
      obtain ⟨q1, q2, q3, q4⟩ := hE e hel.1 hel.2
      refine ⟨q1, q2, fun y hy => ?_, by rw [cp1]; exact q4⟩
      have hyX : y ∉ X := fun hh => hval y hh (q3 y hy).2
      exact ⟨hyX, by rw [v1 y hyX]; exact (q3 y hy).2⟩)
  refine ⟨ds, s', hch1, hmem, r1, ?_, fun e h1 h2 => r4 e (by rw [hdl]; exact (hmem e).2 ⟨h1, h2⟩), ?_⟩
  · have := r2.1; rw [hgl] at this; exact this
  · rw [r5, hdl, l1]

end Verif.Fiber
