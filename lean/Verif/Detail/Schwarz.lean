/-!
# The per-thread main activation record of the ucontext and winfib implementations (C28)

src/fiber.cpp, src/continuation.cpp: `thread_local` pointer and counter, created and deleted by a Schwarz counter.
-/

namespace Verif.Schwarz

/-- thread-local data -/
structure Thr where
  /-- `counter`, src/fiber.cpp line 25, zero-initialised -/
  counter : Nat
  /-- `fib_current_rec`, line 24; not reset when the record is deleted -/
  cur : Option Nat
  /-- number of initializer objects alive in the thread (not a variable of the program) -/
  alive : Nat
  /-- the main record created last (not a variable of the program) -/
  main : Option Nat

structure St where
  thr : Nat → Thr
  /-- records created by `new` and not yet deleted -/
  live : List Nat
  next : Nat
  /-- identifiers of all `delete`d records, in order -/
  deleted : List Nat
  /-- something not alive has been deleted -/
  fault : Bool
  /-- the assertion in line 36 has failed -/
  asserted : Bool

def set (f : Nat → Thr) (t : Nat) (x : Thr) : Nat → Thr := fun u => if u = t then x else f u

def init : St := { thr := fun _ => ⟨0, none, 0, none⟩, live := [], next := 0, deleted := [], fault := false, asserted := false }

/-- constructor, src/fiber.cpp lines 28-32 (the same in src/continuation.cpp); `new` is assumed to succeed (the constructor is `noexcept`) -/
def ctor (s : St) (t : Nat) : St :=
  let x := s.thr t
  let old := x.counter
  let x := { x with counter := old + 1, alive := x.alive + 1 }
  if 0 = old then
    { s with thr := set s.thr t { x with cur := some s.next, main := some s.next }, live := s.next :: s.live, next := s.next + 1 }
  else { s with thr := set s.thr t x }

/-- destructor, src/fiber.cpp lines 34-39 (the same in src/continuation.cpp) -/
def dtor (s : St) (t : Nat) : St :=
  let x := s.thr t
  let x := { x with counter := x.counter - 1, alive := x.alive - 1 }
  if 0 = x.counter then
    let s := { s with thr := set s.thr t x, asserted := s.asserted || decide (x.cur ≠ x.main) }
    match x.cur with
    | some r => { s with live := s.live.erase r, deleted := s.deleted ++ [r], fault := s.fault || decide (r ∉ s.live) }
    | none => { s with fault := true }
  else { s with thr := set s.thr t x }

/-- switching to another context (`resume()`, fiber_ucontext.hpp lines 139-171) changes `current()` -/
def switch (s : St) (t r : Nat) : St := { s with thr := set s.thr t { s.thr t with cur := some r } }

/-- histories of all threads: initializer objects come and go in any number and order; contexts are switched only while one is alive (`current()` constructs one),
and when a thread's last initializer object is destroyed the thread runs on its main context -/
inductive Reach : St → Prop
  | start : Reach init
  | ctor {s} (t) : Reach s → Reach (ctor s t)
  | dtor {s} (t) : Reach s → 0 < (s.thr t).alive → ((s.thr t).alive = 1 → (s.thr t).cur = (s.thr t).main) → Reach (dtor s t)
  | switch {s} (t r) : Reach s → 0 < (s.thr t).alive → Reach (switch s t r)

/-! ## Proofs -/

structure Inv (s : St) : Prop where
  counter : ∀ t, (s.thr t).counter = (s.thr t).alive
  main : ∀ t, 0 < (s.thr t).alive → ∃ r, (s.thr t).main = some r ∧ r ∈ s.live
  inj : ∀ t u r, 0 < (s.thr t).alive → 0 < (s.thr u).alive → (s.thr t).main = some r → (s.thr u).main = some r → t = u
  onto : ∀ r ∈ s.live, ∃ t, 0 < (s.thr t).alive ∧ (s.thr t).main = some r
  nodup : s.live.Nodup
  fresh : ∀ r ∈ s.live, r < s.next
  dfresh : ∀ r ∈ s.deleted, r < s.next ∧ r ∉ s.live
  dnodup : s.deleted.Nodup
  all : ∀ r, r < s.next → r ∈ s.live ∨ r ∈ s.deleted
  ok : s.fault = false ∧ s.asserted = false

theorem set_same (f : Nat → Thr) (t x) : set f t x t = x := if_pos rfl
theorem set_other (f : Nat → Thr) {t u} (x) (h : u ≠ t) : set f t x u = f u := if_neg h

theorem Inv.ctor {s : St} (h : Inv s) (t : Nat) : Inv (ctor s t) := by
  have hc := h.counter t
  unfold Schwarz.ctor
  simp only []
  by_cases h0 : 0 = (s.thr t).counter
  · rw [if_pos h0]
    have ha : (s.thr t).alive = 0 := by omega
    refine ⟨fun u => ?_, fun u hu => ?_, fun u v r hu hv e1 e2 => ?_, fun r hr => ?_, ?_, fun r hr => ?_, fun r hr => ?_, h.dnodup, fun r hr => ?_, h.ok⟩
    · by_cases e : u = t
      · subst e; simp only [set_same]; omega
      · simp only [set_other _ _ e]; exact h.counter u
    · by_cases e : u = t
      · subst e; simp only [set_same]; exact ⟨_, rfl, List.mem_cons_self ..⟩
      · simp only [set_other _ _ e] at *; obtain ⟨r, h1, h2⟩ := h.main u hu; exact ⟨r, h1, List.mem_cons_of_mem _ h2⟩
    · by_cases e : u = t <;> by_cases e' : v = t
      · rw [e, e']
      · subst e
        simp only [set_same, set_other _ _ e'] at *
        obtain ⟨r', h1, h2⟩ := h.main v hv
        have := h.fresh _ h2
        have : s.next = r := Option.some.inj e1
        have : r' = r := Option.some.inj (h1.symm.trans e2)
        omega
      · subst e'
        simp only [set_same, set_other _ _ e] at *
        obtain ⟨r', h1, h2⟩ := h.main u hu
        have := h.fresh _ h2
        have : s.next = r := Option.some.inj e2
        have : r' = r := Option.some.inj (h1.symm.trans e1)
        omega
      · simp only [set_other _ _ e, set_other _ _ e'] at *; exact h.inj u v r hu hv e1 e2
    · rcases List.mem_cons.mp hr with rfl | hr
      · exact ⟨t, by simp only [set_same]; omega, by simp only [set_same]⟩
      · obtain ⟨u, h1, h2⟩ := h.onto r hr
        have e : u ≠ t := by rintro rfl; omega
        exact ⟨u, by simp only [set_other _ _ e]; exact h1, by simp only [set_other _ _ e]; exact h2⟩
    · exact List.nodup_cons.mpr ⟨fun hm => absurd (h.fresh _ hm) (by omega), h.nodup⟩
    · show r < s.next + 1
      rcases List.mem_cons.mp hr with rfl | hr
      · omega
      · have := h.fresh r hr; omega
    · obtain ⟨h1, h2⟩ := h.dfresh r hr
      refine ⟨by show r < s.next + 1; omega, fun hm => ?_⟩
      rcases List.mem_cons.mp hm with rfl | hm
      · omega
      · exact h2 hm
    · have hr : r < s.next + 1 := hr
      by_cases e : r = s.next
      · exact .inl (e ▸ List.mem_cons_self ..)
      · rcases h.all r (by omega) with h1 | h1
        · exact .inl (List.mem_cons_of_mem _ h1)
        · exact .inr h1
  · rw [if_neg h0]
    refine ⟨fun u => ?_, fun u hu => ?_, fun u v r hu hv e1 e2 => ?_, fun r hr => ?_, h.nodup, h.fresh, h.dfresh, h.dnodup, h.all, h.ok⟩
    · by_cases e : u = t
      · subst e; simp only [set_same]; omega
      · simp only [set_other _ _ e]; exact h.counter u
    · by_cases e : u = t
      · subst e; simp only [set_same] at *; exact h.main u (by omega)
      · simp only [set_other _ _ e] at *; exact h.main u hu
    · refine h.inj u v r ?_ ?_ ?_ ?_
      · by_cases e : u = t
        · subst e; omega
        · simp only [set_other _ _ e] at hu; exact hu
      · by_cases e : v = t
        · subst e; omega
        · simp only [set_other _ _ e] at hv; exact hv
      · by_cases e : u = t
        · subst e; simp only [set_same] at e1; exact e1
        · simp only [set_other _ _ e] at e1; exact e1
      · by_cases e : v = t
        · subst e; simp only [set_same] at e2; exact e2
        · simp only [set_other _ _ e] at e2; exact e2
    · obtain ⟨u, h1, h2⟩ := h.onto r hr
      by_cases e : u = t
      · subst e; exact ⟨u, by simp only [set_same]; omega, by simp only [set_same]; exact h2⟩
      · exact ⟨u, by simp only [set_other _ _ e]; exact h1, by simp only [set_other _ _ e]; exact h2⟩

theorem Inv.switch {s : St} (h : Inv s) (t r : Nat) : Inv (switch s t r) := by
  have e : ∀ u, ((Schwarz.switch s t r).thr u).counter = (s.thr u).counter ∧ ((Schwarz.switch s t r).thr u).alive = (s.thr u).alive ∧
      ((Schwarz.switch s t r).thr u).main = (s.thr u).main := by
    intro u
    unfold Schwarz.switch
    by_cases e : u = t
    · subst e; simp [set_same]
    · simp [set_other _ _ e]
  refine ⟨fun u => ?_, fun u hu => ?_, fun u v r hu hv e1 e2 => ?_, fun r hr => ?_, h.nodup, h.fresh, h.dfresh, h.dnodup, h.all, h.ok⟩
  · rw [(e u).1, (e u).2.1]; exact h.counter u
  · rw [(e u).2.1] at hu; rw [(e u).2.2]; exact h.main u hu
  · rw [(e u).2.1] at hu; rw [(e v).2.1] at hv; rw [(e u).2.2] at e1; rw [(e v).2.2] at e2; exact h.inj u v r hu hv e1 e2
  · obtain ⟨u, h1, h2⟩ := h.onto r hr
    exact ⟨u, by rw [(e u).2.1]; exact h1, by rw [(e u).2.2]; exact h2⟩

theorem Inv.dtor {s : St} (h : Inv s) (t : Nat) (hp : 0 < (s.thr t).alive) (hm : (s.thr t).alive = 1 → (s.thr t).cur = (s.thr t).main) : Inv (dtor s t) := by
  have hc := h.counter t
  unfold Schwarz.dtor
  simp only []
  by_cases h0 : 0 = (s.thr t).counter - 1
  · rw [if_pos h0]
    have ha : (s.thr t).alive = 1 := by omega
    have hcm := hm ha
    obtain ⟨r0, hr0, hl0⟩ := h.main t hp
    rw [hr0] at hcm
    simp only [hcm, hr0]
    have hne : ∀ u, u ≠ t → 0 < (s.thr u).alive → (s.thr u).main ≠ some r0 := by
      intro u e hu hx
      exact e (h.inj u t r0 hu hp hx hr0)
    have hmem : ∀ r, r ∈ s.live.erase r0 ↔ r ≠ r0 ∧ r ∈ s.live := fun r => h.nodup.mem_erase_iff
    refine ⟨fun u => ?_, fun u hu => ?_, fun u v r hu hv e1 e2 => ?_, fun r hr => ?_, h.nodup.erase _, fun r hr => ?_, fun r hr => ?_, ?_, fun r hr => ?_, ?_⟩
    · by_cases e : u = t
      · subst e; simp only [set_same]; omega
      · simp only [set_other _ _ e]; exact h.counter u
    · have e : u ≠ t := by rintro rfl; simp only [set_same] at hu; omega
      simp only [set_other _ _ e] at *
      obtain ⟨r, h1, h2⟩ := h.main u hu
      exact ⟨r, h1, (hmem r).mpr ⟨fun hx => hne u e hu (hx ▸ h1), h2⟩⟩
    · have e : u ≠ t := by rintro rfl; simp only [set_same] at hu; omega
      have e' : v ≠ t := by rintro rfl; simp only [set_same] at hv; omega
      simp only [set_other _ _ e, set_other _ _ e'] at *
      exact h.inj u v r hu hv e1 e2
    · obtain ⟨h1, h2⟩ := (hmem r).mp hr
      obtain ⟨u, h3, h4⟩ := h.onto r h2
      have e : u ≠ t := by rintro rfl; exact h1 (Option.some.inj (h4.symm.trans hr0))
      exact ⟨u, by simp only [set_other _ _ e]; exact h3, by simp only [set_other _ _ e]; exact h4⟩
    · exact h.fresh r ((hmem r).mp hr).2
    · rcases List.mem_append.mp hr with h1 | h1
      · exact ⟨(h.dfresh r h1).1, fun hx => (h.dfresh r h1).2 ((hmem r).mp hx).2⟩
      · rw [List.mem_singleton.mp h1]
        exact ⟨h.fresh r0 hl0, fun hx => ((hmem r0).mp hx).1 rfl⟩
    · refine List.nodup_append.mpr ⟨h.dnodup, by simp, fun a ha b hb => ?_⟩
      rw [List.mem_singleton.mp hb]
      rintro rfl
      exact (h.dfresh a ha).2 hl0
    · rcases h.all r hr with h1 | h1
      · by_cases e : r = r0
        · exact .inr (List.mem_append_right _ (by simp [e]))
        · exact .inl ((hmem r).mpr ⟨e, h1⟩)
      · exact .inr (List.mem_append_left _ h1)
    · simp [h.ok.1, h.ok.2, hl0]
  · rw [if_neg h0]
    refine ⟨fun u => ?_, fun u hu => ?_, fun u v r hu hv e1 e2 => ?_, fun r hr => ?_, h.nodup, h.fresh, h.dfresh, h.dnodup, h.all, h.ok⟩
    · by_cases e : u = t
      · subst e; simp only [set_same]; omega
      · simp only [set_other _ _ e]; exact h.counter u
    · by_cases e : u = t
      · subst e; simp only [set_same] at *; exact h.main u (by omega)
      · simp only [set_other _ _ e] at *; exact h.main u hu
    · refine h.inj u v r ?_ ?_ ?_ ?_
      · by_cases e : u = t
        · subst e; omega
        · simp only [set_other _ _ e] at hu; exact hu
      · by_cases e : v = t
        · subst e; omega
        · simp only [set_other _ _ e] at hv; exact hv
      · by_cases e : u = t
        · subst e; simp only [set_same] at e1; exact e1
        · simp only [set_other _ _ e] at e1; exact e1
      · by_cases e : v = t
        · subst e; simp only [set_same] at e2; exact e2
        · simp only [set_other _ _ e] at e2; exact e2
    · obtain ⟨u, h1, h2⟩ := h.onto r hr
      by_cases e : u = t
      · subst e; exact ⟨u, by simp only [set_same]; omega, by simp only [set_same]; exact h2⟩
      · exact ⟨u, by simp only [set_other _ _ e]; exact h1, by simp only [set_other _ _ e]; exact h2⟩

theorem Reach.inv {s : St} (h : Reach s) : Inv s := by
  induction h with
  | start => exact ⟨fun _ => rfl, fun t h => absurd h (by simp [init]), fun t u r h => absurd h (by simp [init]), by simp [init], by simp [init], by simp [init], by simp [init],
      by simp [init], by simp [init], ⟨rfl, rfl⟩⟩
  | ctor t _ ih => exact ih.ctor t
  | dtor t _ h1 h2 ih => exact ih.dtor t h1 h2
  | switch t r _ _ ih => exact ih.switch t r

/-- **C28**: in every history of every number of threads, a thread's main record exists exactly while an initializer object of that thread is alive; it is the
thread's own; no assertion fails. -/
theorem C28_exists {s : St} (h : Reach s) :
    (∀ t, 0 < (s.thr t).alive → ∃ r ∈ s.live, (s.thr t).main = some r ∧ ∀ u, 0 < (s.thr u).alive → (s.thr u).main = some r → u = t) ∧
    (∀ r ∈ s.live, ∃ t, 0 < (s.thr t).alive ∧ (s.thr t).main = some r) ∧ s.asserted = false := by
  have hi := h.inv
  refine ⟨fun t ht => ?_, hi.onto, hi.ok.2⟩
  obtain ⟨r, h1, h2⟩ := hi.main t ht
  exact ⟨r, h2, h1, fun u hu hx => hi.inj u t r hu ht hx h1⟩

/-- **C28**: every record ever created (they are numbered from 0) is alive or has been deleted exactly once; nothing else is deleted. -/
theorem C28_once {s : St} (h : Reach s) :
    s.fault = false ∧ (∀ r, r < s.next ↔ r ∈ s.live ∨ r ∈ s.deleted) ∧ s.deleted.Nodup ∧ (∀ r ∈ s.deleted, r ∉ s.live) := by
  have hi := h.inv
  refine ⟨hi.ok.1, fun r => ⟨hi.all r, ?_⟩, hi.dnodup, fun r hr => (hi.dfresh r hr).2⟩
  rintro (h1 | h1)
  · exact hi.fresh r h1
  · exact (hi.dfresh r h1).1

/-- **C28**: a record is created exactly when the number of initializer objects of a thread goes from 0 to 1, and deleted exactly when it goes from 1 to 0. -/
theorem C28_transitions {s : St} (h : Reach s) (t : Nat) :
    ((ctor s t).next = if (s.thr t).alive = 0 then s.next + 1 else s.next) ∧ (ctor s t).deleted = s.deleted ∧
    (0 < (s.thr t).alive → (s.thr t).cur ≠ none → (dtor s t).next = s.next ∧
      (dtor s t).deleted = if (s.thr t).alive = 1 then s.deleted ++ (s.thr t).cur.toList else s.deleted) := by
  have hc := h.inv.counter t
  refine ⟨?_, ?_, fun hp hn => ?_⟩
  · unfold ctor
    simp only [hc]
    by_cases e : (s.thr t).alive = 0
    · rw [if_pos e, if_pos e.symm]
    · rw [if_neg e, if_neg (by omega)]
  · unfold ctor
    simp only []
    split <;> rfl
  · obtain ⟨r, hr⟩ := Option.ne_none_iff_exists'.mp hn
    unfold dtor
    simp only [hc, hr]
    by_cases e : (s.thr t).alive = 1
    · rw [if_pos (by omega), if_pos e]; exact ⟨rfl, rfl⟩
    · rw [if_neg (by omega), if_neg e]; exact ⟨rfl, rfl⟩

/-- **C28**: what happens in a thread whose last initializer object is destroyed, whatever context it executes then: the assertion (line 36) fails exactly if this is not its main
context; without assertions the record of the context it executes is deleted, which is a record of no thread's main context exactly if `fault` is raised; the main record is lost. -/
theorem C28_last {s : St} (h : Reach s) {t : Nat} (ha : (s.thr t).alive = 1) :
    ((dtor s t).asserted = true ↔ (s.thr t).cur ≠ (s.thr t).main) ∧ ((dtor s t).fault = true ↔ ∀ r, (s.thr t).cur = some r → r ∉ s.live) ∧
    ∀ r, (s.thr t).cur = some r → (dtor s t).deleted = s.deleted ++ [r] ∧ ∀ m, (s.thr t).main = some m → m ≠ r → m ∈ (dtor s t).live := by
  have hi := h.inv
  have hc := hi.counter t
  have h0 : 0 = (s.thr t).counter - 1 := by omega
  obtain ⟨m, hm, hl⟩ := hi.main t (by omega)
  obtain ⟨o1, o2⟩ := hi.ok
  unfold dtor
  simp only [if_pos h0]
  cases hx : (s.thr t).cur with
  | none => simp [o2, hm]
  | some r =>
    refine ⟨by simp [o2], by simp [o1], ?_⟩
    intro r' hr'
    injection hr' with hr'
    subst hr'
    refine ⟨rfl, fun k hk hne => ?_⟩
    have : k = m := by rw [hm] at hk; injection hk with hk; exact hk.symm
    subst this
    exact (hi.nodup.mem_erase_iff).mpr ⟨hne, hl⟩

/-- A thread whose last initializer object is destroyed while it executes context 5, which is not its main context. -/
example : ∃ s, Reach s ∧ (s.thr 7).alive = 1 ∧ (s.thr 7).cur = some 5 ∧ (s.thr 7).main = some 0 ∧ (dtor s 7).asserted = true ∧ (dtor s 7).fault = true := by
  have h1 := (Reach.start.ctor 7).switch 7 5 (by decide)
  exact ⟨_, h1, by decide, by decide, by decide, by decide, by decide⟩

/-- A thread that has switched to another context and back again. -/
example : ∃ s, Reach s ∧ s.live = [] ∧ s.deleted = [0] := by
  have h1 := ((((Reach.start.ctor 7).switch 7 5 (by decide)).switch 7 0 (by decide))).dtor 7 (by decide) (by decide)
  exact ⟨_, h1, by decide, by decide⟩

/-- Two threads; in one of them the last object goes away and another one is constructed. -/
example : ∃ s, Reach s ∧ s.live = [2, 1] ∧ s.deleted = [0] ∧ (s.thr 7).main = some 2 ∧ (s.thr 8).alive = 2 := by
  have h0 := Reach.start
  have h1 := h0.ctor 7
  have h2 := h1.ctor 8
  have h3 := h2.ctor 8
  have h4 := h3.dtor 7 (by decide) (by decide)
  have h5 := h4.ctor 7
  exact ⟨_, h5, by decide, by decide, by decide, by decide⟩

end Verif.Schwarz
