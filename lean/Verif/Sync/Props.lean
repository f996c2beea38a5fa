import Verif.Sync.Step
import Verif.Sync.Gen
import Verif.Fiber.Steps3

/-!
# C94 — contexts are handed over without data races

Any two steps of an execution that use one context are ordered by happens-before.
-/

namespace Verif.Sync
open Verif.Fiber

theorem Run.reachable (r : Run) : ∀ n, n ≤ r.len → Reachable (r.st n)
  | 0, _ => r.start ▸ .init
  | n + 1, h => .step (r.reachable n (Nat.le_of_succ_le h)) (r.step n h)

/-- what of a state of the fiber machine matters -/
def fview (s : State) : View := ⟨s.cur, s.nextCtx, s.val, s.kind, fun m d => 0 < exits m (s.frames d)⟩

theorem fview_good {s : State} (hi : Inv s) : Good (fview s) := by
  have lt : ∀ {d}, s.status d ≠ .absent → d < s.nextCtx := fun {d} h => Nat.lt_of_not_le fun hl => h ((hi.ci.absent d).2 hl)
  have cr : ∀ {t d}, (fview s).cur t = some d → s.status d = .running t := fun h => (hi.ci.curRun _ _).1 h
  have va : ∀ {x f}, (fview s).val x = some f → s.status f.ctx = .suspended := fun h => (hi.vi.valid _ _ h).1
  have ex : ∀ {d e}, (fview s).ex d e → s.status d = .terminated := fun h => hi.ci.exitT _ _ h
  refine ⟨fun t t' d h h' => ?_, fun t d h => lt ?_, fun t d x f h h' e => ?_, fun t d e h h' => ?_, fun x f h => lt ?_, hi.vi.inj, fun x f e h h' => ?_, fun d e h => lt ?_, hi.ci.exitU⟩
  · have := (cr h).symm.trans (cr h'); cases this; rfl
  · rw [cr h]; simp
  · have := (cr h).symm.trans (e ▸ va h'); cases this
  · have := (cr h).symm.trans (ex h'); cases this
  · rw [va h]; simp
  · have := (va h).symm.trans (ex h'); cases this
  · rw [ex h]; simp

/-- a step of the fiber machine -/
theorem fview_facts {s s' : State} {t : Tid} {c : CtxId} (hc : s.cur t = some c) (h : StepFacts s s' t c) : Facts (fview s) (fview s') t c fun d => s.cur t = some d ∨ Alters s s' d := by
  have us : ∀ {d}, d = c ∨ Alters s s' d → s.cur t = some d ∨ Alters s s' d := by
    rintro d (rfl | h)
    · exact .inl hc
    · exact .inr h
  refine ⟨fun d hd => ?_, fun x f h1 => ?_, fun m d hd => (h.exits m d hd).imp id fun ⟨a, b⟩ => ⟨us a, us b⟩, fun t' d hd => (h.cur t' d hd).imp (fun ⟨a, b⟩ => ⟨us a, b⟩) id, h.mono⟩
  · rcases hd with hd | hd
    · rw [hc] at hd; cases hd; exact .inl rfl
    · rcases h.why d hd with h1 | ⟨rfl, h1⟩ | h1 | ⟨x, f, h1, rfl, h2, h3⟩
      · exact .inl h1
      · exact .inr (.inl ⟨Nat.le_refl _, h1⟩)
      · exact .inr (.inr (.inl h1))
      · exact .inr (.inr (.inr ⟨x, f, h1, rfl, fun e => h2 (e.trans h1.symm), h3⟩))
  · exact (h.val x f h1).imp id fun ⟨h2, h3⟩ => ⟨h2.imp us id, fun e he => us (h3 e he)⟩

/-- an execution of the fiber machine -/
def Run.abs (r : Run) : Abs where
  v n := fview (r.st n)
  tid := r.tid
  len := r.len
  uses := Uses r
  writes := Writes r
  good n hn := fview_good (reachable_inv (r.reachable n hn))
  facts n hn := by
    obtain ⟨c, hc, hf⟩ := step_facts (reachable_inv (r.reachable n (Nat.le_of_lt hn))) (r.step n hn)
    exact ⟨c, hc, .inl hc, fview_facts hc hf⟩
  wr n x _ h h' := ⟨h.imp And.left And.left, h'⟩

/-- **C94** — No data race on a context: in every execution, of any number of threads and contexts, two steps that use the same context are ordered by happens-before, although the library itself
synchronises nothing: the order of the steps of each thread, the start of threads and the synchronisation of the program's own `fiber` objects suffice. -/
theorem C94_uses_ordered (r : Run) {i j : Nat} {d : CtxId} (hij : i < j) (hj : j < r.len) (hi : Uses r i d) (hd : Uses r j d) : r.HB i j :=
  r.abs.ordered hij hj hi hd

theorem freed_not (r : Run) {n : Nat} {d : CtxId} (hn : n < r.len) (hl : (r.st n).status d = .freed) : ¬ Uses r n d := by
  have inv := reachable_inv (r.reachable n (Nat.le_of_lt hn))
  obtain ⟨c, hc, hf⟩ := step_facts inv (r.step n hn)
  have hst := (inv.ci.curRun _ _).1 hc
  rintro (h | h)
  · rw [hc] at h; cases h; rw [hst] at hl; cases hl
  · rcases hf.why d h with h | ⟨h, -⟩ | h | ⟨y, g, h2, h3, -, -⟩
    · rw [h, hst] at hl; cases hl
    · rw [h, (inv.ci.absent _).2 (Nat.le_refl _)] at hl; cases hl
    · rw [inv.ci.exitT _ _ h] at hl; cases hl
    · rw [← h3, (inv.vi.valid y g h2).1] at hl; cases hl

theorem freed_stays (r : Run) {m : Nat} {d : CtxId} (hl : (r.st m).status d = .freed) : ∀ n, m ≤ n → n ≤ r.len → (r.st n).status d = .freed
  | 0, h, _ => by cases Nat.le_zero.1 h; exact hl
  | n + 1, h, hn => by
    rcases Nat.lt_or_eq_of_le h with h | rfl
    · have ih := freed_stays r hl n (Nat.le_of_lt_succ h) (Nat.le_of_succ_le hn)
      exact Classical.byContradiction fun h2 => freed_not r hn ih (.inr (.inr (.inl fun e => h2 (e.trans ih))))
    · exact hl

/-- The release of the stack of a context comes after every other use of the context, and after it the context is not used again. -/
theorem C94_release_last (r : Run) {i j : Nat} {d : CtxId} (hi : i < r.len) (hj : j < r.len) (hl : (r.st (j + 1)).status d = .freed) (hb : (r.st j).status d ≠ .freed) (hu : Uses r i d) :
    i = j ∨ r.HB i j := by
  have hd : Uses r j d := .inr (.inr (.inl fun e => hb (e ▸ hl)))
  rcases Nat.lt_trichotomy i j with h | h | h
  · exact .inr (C94_uses_ordered r h hj hu hd)
  · exact .inl h
  · exact absurd hu (freed_not r hi (freed_stays r hl i h (Nat.le_of_lt hi)))

/-- happens-before goes forward: it is a partial order of the steps -/
theorem HB.lt {len : Nat} {tid : Nat → Tid} {st : Nat → Tid → Prop} {wr : Nat → Var → Prop} {i j : Nat} (h : HB len tid st wr i j) : i < j := by
  induction h with
  | thread h | start h | object h => exact h
  | trans _ _ h1 h2 => exact Nat.lt_trans h1 h2

/-! ## Examples -/

theorem run_append (s : State) (h h' : List (Tid × Op)) : run s (h ++ h') = match run s h with | .ok s' => run s' h' | e => e := by
  induction h generalizing s with
  | nil => rfl
  | cons a h ih =>
    simp only [List.cons_append, run]
    cases step s a.1 a.2 <;> simp [ih]

/-- the execution of a history -/
def ofHist (h : List (Tid × Op)) (hok : ∀ i, i < h.length → runsOk (h.take (i + 1)) = true) : Run where
  st i := exec (h.take i)
  tid i := (h.getD i (0, .tick)).1
  op i := (h.getD i (0, .tick)).2
  len := h.length
  start := rfl
  step i hi := by
    have h1 := hok i hi
    have h0 : h.take (i + 1) = h.take i ++ [h[i]] := (List.take_append_getElem hi).symm
    have h2 : h.getD i (0, .tick) = h[i] := by simp [List.getD, hi]
    rw [h2]
    rw [h0] at h1 ⊢
    revert h1
    simp only [runsOk, exec, run_append]
    cases run init (h.take i) with
    | ok s => 
      simp only [run]
      cases step s h[i].1 h[i].2 <;> simp
    | _ => simp

/-- Main starts a second thread, creates a fiber and starts it; the fiber resumes main, main moves the fiber to the heap (object 3), the second thread resumes it. -/
def hist : List (Tid × Op) := [(0, .spawn), (0, .create [] .success), (0, .resume 0), (0, .resume 1), (0, .moveHeap 2), (1, .resume 3)]

theorem hist_ok : ∀ i, i < hist.length → runsOk (hist.take (i + 1)) = true := by decide

/-- the execution of `hist` -/
def demo : Run := ofHist hist hist_ok

/-- in `demo`, the fiber runs on thread 0 in step 3 and is resumed by thread 1 in step 5 -/
theorem demo_uses : Uses demo 3 2 ∧ Uses demo 5 2 ∧ demo.tid 3 = 0 ∧ demo.tid 5 = 1 :=
  ⟨.inl (by decide), .inr (.inr (.inl (by decide))), rfl, rfl⟩

example : demo.HB 3 5 := C94_uses_ordered demo (by decide) (by decide) demo_uses.1 demo_uses.2.1

/-- The synchronisation of the program's `fiber` objects is needed: without it there are executions in which two threads use a context in no order. -/
theorem C94_objects_needed : ∃ (r : Run) (i j : Nat) (d : CtxId), i < j ∧ j < r.len ∧ Uses r i d ∧ Uses r j d ∧ ¬ HB r.len r.tid (Starts r) (fun _ _ => False) i j := by
  refine ⟨demo, 3, 5, 2, by decide, by decide, demo_uses.1, demo_uses.2.1, fun h => ?_⟩
  have key : ∀ i j, HB demo.len demo.tid (Starts demo) (fun _ _ => False) i j → demo.tid j = 1 → demo.tid i = 1 ∨ i = 0 := by
    intro i j h
    induction h with
    | thread _ _ ht => exact fun h => .inl (ht.trans h)
    | object _ _ h => exact h.elim
    | @start i j h1 h2 hs =>
      intro hj
      rw [hj] at hs
      replace h2 : j < 6 := h2
      have : i < 5 := Nat.lt_of_lt_of_le h1 (Nat.le_of_lt_succ h2)
      have h3 : ∀ i, i < 5 → (demo.st i).cur 1 = none → (demo.st (i + 1)).cur 1 ≠ none → i = 0 := by decide
      exact .inr (h3 i this hs.1 hs.2)
    | @trans i j k h1 _ ih1 ih2 =>
      intro hk
      rcases ih2 hk with h | rfl
      · exact ih1 h
      · exact absurd h1.lt (Nat.not_lt_zero _)
  rcases key 3 5 h rfl with h | h
  · exact absurd h (by decide)
  · cases h

/-- two threads that have nothing to do with each other -/
def loose : Run := ofHist [(0, .spawn), (0, .call), (1, .call)] (by decide)

/-- Happens-before does not order everything: unrelated steps of two threads stay unordered. -/
theorem C94_not_total : ∃ (r : Run) (i j : Nat), i < j ∧ j < r.len ∧ ¬ r.HB i j := by
  refine ⟨loose, 1, 2, by decide, by decide, fun h => ?_⟩
  have key : ∀ i j, loose.HB i j → i = 1 → j ≠ 2 := by
    intro i j h
    induction h with
    | thread _ _ ht => rintro rfl rfl; exact absurd ht (by decide)
    | start _ _ hs => rintro rfl rfl; exact absurd hs (by simp only [Starts]; decide)
    | object _ _ hx _ =>
      rintro rfl rfl
      rcases hx.2 with h | h <;> exact h rfl
    | @trans i j k h1 h2 ih1 ih2 =>
      rintro rfl rfl
      have a := h1.lt; have b := h2.lt; omega
  exact key 1 2 h rfl rfl

/-- the whole life of a fiber: `C94_release_last` applies to its last step -/
def life : Run := ofHist h3 (by decide)

example : (life.st 7).status 1 = .freed ∧ (life.st 6).status 1 ≠ .freed ∧ Uses life 0 1 ∧ Uses life 2 1 ∧ 6 < life.len := by
  refine ⟨by decide, by decide, .inr (.inr (.inl (by decide))), .inl (by decide), by decide⟩

end Verif.Sync
