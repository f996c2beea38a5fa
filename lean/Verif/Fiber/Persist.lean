import Verif.Fiber.Eqs

/-! # Frames below the innermost one do not change -/

namespace Verif.Fiber
open State

theorem cons_split {α} {pre : List α} {g f : α} {base r : List α} (h : f :: r = pre ++ g :: base) :
    (pre = [] ∧ g = f ∧ base = r) ∨ ∃ pre1, pre = f :: pre1 ∧ r = pre1 ++ g :: base := by
  cases pre with
  | nil => simp at h; exact .inl ⟨rfl, h.1.symm, h.2.symm⟩
  | cons a pre => simp at h; exact .inr ⟨pre, by rw [h.1], h.2⟩

theorem nil_split {α} {pre : List α} {g : α} {base : List α} (h : [] = pre ++ g :: base) : False := by simp at h

/-- `Cont`/`Raised` only change the part above (and including) the first user frame -/
theorem Cont.split {s' d v fs fs' g base} {pre : List Frame} (h : Cont s' d v fs fs') (hfs : fs = pre ++ g :: base)
    (hg : (∃ n, g = .exiting n) ∨ (∃ n, g = .dtor n) ∨ ∃ i ls m, g = .user (.ontop i) ls m) :
    (∃ pre', fs' = pre' ++ g :: base) ∨ (∃ w, g = .dtor w ∧ pre = [] ∧ fs' = base ∧ .destroyed w d ∈ s'.log) ∨
    ∃ i ls x, g = .user (.ontop i) ls .normal ∧ pre = [.resume] ∧ fs' = .user (.ontop i) (x :: ls) .normal :: base := by
  cases h with
  | entry =>
    rcases cons_split hfs with ⟨_, h, _⟩ | ⟨p1, _, h⟩
    · grind
    · exact (nil_split h).elim
  | resume =>
    rcases cons_split hfs with ⟨_, h, _⟩ | ⟨p1, rfl, h⟩
    · grind
    · rcases cons_split h with ⟨rfl, h1, rfl⟩ | ⟨p2, rfl, rfl⟩
      · refine .inr (.inr ?_)
        rcases hg with ⟨n, rfl⟩ | ⟨n, rfl⟩ | ⟨i, ls, m, rfl⟩
        · simp at h1
        · simp at h1
        · simp at h1; obtain ⟨rfl, rfl, rfl⟩ := h1
          exact ⟨i, ls, _, rfl, rfl, rfl⟩
      · exact .inl ⟨_ :: p2, rfl⟩
  | dtor hl =>
    rcases cons_split hfs with ⟨rfl, rfl, rfl⟩ | ⟨p1, rfl, rfl⟩
    · exact .inr (.inl ⟨_, rfl, rfl, rfl, hl⟩)
    · exact .inl ⟨p1, rfl⟩

theorem Raised.split {s' d e fs fs' g base} {pre : List Frame} (h : Raised s' d e fs fs') (hfs : fs = pre ++ g :: base)
    (hg : (∃ n, g = .exiting n) ∨ (∃ n, g = .dtor n) ∨ ∃ i ls m, g = .user (.ontop i) ls m) :
    (∃ pre', fs' = pre' ++ g :: base) ∨ 
    ∃ i ls, g = .user (.ontop i) ls .normal ∧ pre = [.resume] ∧ fs' = .user (.ontop i) ls (.unwinding e) :: base := by
  cases h with
  | entry =>
    rcases cons_split hfs with ⟨_, h, _⟩ | ⟨p1, _, h⟩
    · grind
    · exact (nil_split h).elim
  | resume =>
    rcases cons_split hfs with ⟨_, h, _⟩ | ⟨p1, rfl, h⟩
    · grind
    · rcases cons_split h with ⟨rfl, h1, rfl⟩ | ⟨p2, rfl, rfl⟩
      · refine .inr ?_
        rcases hg with ⟨n, rfl⟩ | ⟨n, rfl⟩ | ⟨i, ls, m, rfl⟩
        · simp at h1
        · simp at h1
        · simp at h1; obtain ⟨rfl, rfl, rfl⟩ := h1
          exact ⟨i, ls, rfl, rfl, rfl⟩
      · exact .inl ⟨_ :: p2, rfl⟩

/-- A release in progress is never dropped: it stays until the release is done. -/
theorem exiting_persists {s s' : State} {t op d n pre base} (hi : Inv s) (h : step s t op = .ok s')
    (hf : s.frames d = pre ++ .exiting n :: base) :
    (∃ pre', s'.frames d = pre' ++ .exiting n :: base) ∨
    (pre = [] ∧ op = .tick ∧ s.cur t = some d ∧ s.caps n = [] ∧ s.status n = .terminated ∧ .dealloc n ∈ s'.log ∧ Cont s' d none base (s'.frames d)) := by
  cases step_evol hi h d with
  | same h => exact .inl ⟨pre, by rw [h, hf]⟩
  | top hc h1 hp h' =>
    rw [h1] at hf
    rcases cons_split hf with ⟨_, h, _⟩ | ⟨p1, rfl, rfl⟩
    · simp at h
    · exact .inl ⟨_, h'.trans (List.append_assoc _ (_ :: p1) _).symm⟩
  | exitTop hc h1 hp h' =>
    rw [h1] at hf
    rcases cons_split hf with ⟨_, h, rfl⟩ | ⟨p1, rfl, rfl⟩
    · rw [h]; exact .inl ⟨_, h'⟩
    · exact .inl ⟨_, h'.trans (List.append_assoc _ (_ :: p1) _).symm⟩
  | pop hc hk h1 h' =>
    rw [h1] at hf
    rcases cons_split hf with ⟨_, h, _⟩ | ⟨p1, rfl, rfl⟩
    · simp at h
    · exact .inl ⟨p1, h'⟩
  | prop hc ho h1 h' =>
    rw [h1] at hf
    rcases cons_split hf with ⟨_, h, _⟩ | ⟨p1, rfl, h2⟩
    · simp at h
    · rcases cons_split h2 with ⟨_, h, _⟩ | ⟨p2, rfl, rfl⟩
      · simp at h
      · exact .inl ⟨_ :: p2, h'⟩
  | finish hc ho h1 h' hs =>
    rw [h1] at hf
    have := congrArg (Frame.exiting n ∈ ·) hf
    simp at this
  | endMain hc ho h1 h' =>
    rw [h1] at hf
    have := congrArg (Frame.exiting n ∈ ·) hf
    simp at this
  | ontopRet hc ho h1 h' =>
    rw [h1] at hf
    rcases cons_split hf with ⟨_, h, _⟩ | ⟨p1, rfl, h2⟩
    · simp at h
    · rcases h'.split h2 (.inl ⟨n, rfl⟩) with h | ⟨w, h, _⟩ | ⟨i, ls, x, h, _⟩
      · exact .inl h
      · simp at h
      · simp at h
  | ontopThrow hc ho h1 hee h' =>
    rw [h1] at hf
    rcases cons_split hf with ⟨_, h, _⟩ | ⟨p1, rfl, h2⟩
    · simp at h
    · rcases h'.split h2 (.inl ⟨n, rfl⟩) with h | ⟨i, ls, h, _⟩
      · exact .inl h
      · simp at h
  | exitDone hc ho h1 hcp hs hl h' =>
    rw [h1] at hf
    rcases cons_split hf with ⟨rfl, h, rfl⟩ | ⟨p1, rfl, h2⟩
    · simp at h; subst h
      exact .inr ⟨rfl, ho, hc, hcp, hs, hl, h'⟩
    · rcases h'.split h2 (.inl ⟨n, rfl⟩) with h | ⟨w, h, _⟩ | ⟨i, ls, x, h, _⟩
      · exact .inl h
      · simp at h
      · simp at h
  | resumed hc ho ha hd hs hr hfc h' =>
    rcases h'.split hf (.inl ⟨n, rfl⟩) with h | ⟨w, h, _⟩ | ⟨i, ls, x, h, _⟩
    · exact .inl h
    · simp at h
    · simp at h
  | ontop hc ho hd hs hr hv h' => exact .inl ⟨_ :: pre, by rw [h', hf]; rfl⟩
  | copyThrow hc ho hd hs hr h' =>
    rcases h'.split hf (.inl ⟨n, rfl⟩) with h | ⟨i, ls, h, _⟩
    · exact .inl h
    · simp at h
  | raised hc hd hs hw h' =>
    rcases h'.split hf (.inl ⟨n, rfl⟩) with h | ⟨i, ls, h, _⟩
    · exact .inl h
    · simp at h
  | exitOf hc ho hd hs hr hfc h' => exact .inl ⟨_ :: pre, by rw [h', hf]; rfl⟩
  | freed h1 h' =>
    rw [h1] at hf
    have := congrArg (Frame.exiting n ∈ ·) hf
    simp at this
  | created h1 h' => rw [hi.ci.fAbsent d h1] at hf; simp at hf

/-- A destructor of `fiber` does not return before the stack it destroys has been released. -/
theorem dtor_persists {s s' : State} {t op d v pre base} (hi : Inv s) (h : step s t op = .ok s')
    (hf : s.frames d = pre ++ .dtor v :: base) :
    (∃ pre', s'.frames d = pre' ++ .dtor v :: base) ∨
    (pre = [.exiting v] ∧ op = .tick ∧ s.cur t = some d ∧ s.caps v = [] ∧ s'.frames d = base ∧ .dealloc v ∈ s'.log ∧ .destroyed v d ∈ s'.log) := by
  cases step_evol hi h d with
  | same h => exact .inl ⟨pre, by rw [h, hf]⟩
  | top hc h1 hp h' =>
    rw [h1] at hf
    rcases cons_split hf with ⟨_, h, _⟩ | ⟨p1, rfl, rfl⟩
    · simp at h
    · exact .inl ⟨_, h'.trans (List.append_assoc _ (_ :: p1) _).symm⟩
  | exitTop hc h1 hp h' =>
    rw [h1] at hf
    rcases cons_split hf with ⟨_, h, _⟩ | ⟨p1, rfl, rfl⟩
    · simp at h
    · exact .inl ⟨_, h'.trans (List.append_assoc _ (_ :: p1) _).symm⟩
  | pop hc hk h1 h' =>
    rw [h1] at hf
    rcases cons_split hf with ⟨_, h, _⟩ | ⟨p1, rfl, rfl⟩
    · simp at h
    · exact .inl ⟨p1, h'⟩
  | prop hc ho h1 h' =>
    rw [h1] at hf
    rcases cons_split hf with ⟨_, h, _⟩ | ⟨p1, rfl, h2⟩
    · simp at h
    · rcases cons_split h2 with ⟨_, h, _⟩ | ⟨p2, rfl, rfl⟩
      · simp at h
      · exact .inl ⟨_ :: p2, h'⟩
  | finish hc ho h1 h' hs =>
    rw [h1] at hf
    have := congrArg (Frame.dtor v ∈ ·) hf
    simp at this
  | endMain hc ho h1 h' =>
    rw [h1] at hf
    have := congrArg (Frame.dtor v ∈ ·) hf
    simp at this
  | ontopRet hc ho h1 h' =>
    have hw := (facts hi hc).2.1
    rw [h1] at hf hw
    rcases cons_split hf with ⟨_, h, _⟩ | ⟨p1, rfl, h2⟩
    · simp at h
    · rcases h'.split h2 (.inr (.inl ⟨v, rfl⟩)) with h | ⟨w, h, rfl, _⟩ | ⟨i, ls, x, h, _⟩
      · exact .inl h
      · rw [h2] at hw; simp [WF, Adj] at hw
      · simp at h
  | ontopThrow hc ho h1 hee h' =>
    rw [h1] at hf
    rcases cons_split hf with ⟨_, h, _⟩ | ⟨p1, rfl, h2⟩
    · simp at h
    · rcases h'.split h2 (.inr (.inl ⟨v, rfl⟩)) with h | ⟨i, ls, h, _⟩
      · exact .inl h
      · simp at h
  | exitDone hc ho h1 hcp hs hl h' =>
    have hw := (facts hi hc).2.1
    rw [h1] at hf hw
    rcases cons_split hf with ⟨rfl, h, rfl⟩ | ⟨p1, rfl, h2⟩
    · simp at h
    · rcases h'.split h2 (.inr (.inl ⟨v, rfl⟩)) with h | ⟨w, h, rfl, hfb, hdl⟩ | ⟨i, ls, x, h, _⟩
      · exact .inl h
      · rw [h2] at hw; simp [WF, Adj] at hw
        simp at h; subst h
        obtain ⟨rfl, _⟩ := hw
        exact .inr ⟨rfl, ho, hc, hcp, hfb, hl, hdl⟩
      · simp at h
  | resumed hc ho ha hd hs hr hfc h' =>
    rcases h'.split hf (.inr (.inl ⟨v, rfl⟩)) with h | ⟨w, h, rfl, _⟩ | ⟨i, ls, x, h, _⟩
    · exact .inl h
    · obtain ⟨f, hx, rfl⟩ := hd
      exact absurd (dtorTop_iff.2 ⟨_, by simpa using hf⟩) (hi.vi.nonExc _ f (accessible_ne_exc ha) hx v)
    · simp at h
  | ontop hc ho hd hs hr hv h' => exact .inl ⟨_ :: pre, by rw [h', hf]; rfl⟩
  | copyThrow hc ho hd hs hr h' =>
    rcases h'.split hf (.inr (.inl ⟨v, rfl⟩)) with h | ⟨i, ls, h, _⟩
    · exact .inl h
    · simp at h
  | raised hc hd hs hw h' =>
    rcases h'.split hf (.inr (.inl ⟨v, rfl⟩)) with h | ⟨i, ls, h, _⟩
    · exact .inl h
    · simp at h
  | exitOf hc ho hd hs hr hfc h' => exact .inl ⟨_ :: pre, by rw [h', hf]; rfl⟩
  | freed h1 h' =>
    rw [h1] at hf
    have := congrArg (Frame.dtor v ∈ ·) hf
    simp at this
  | created h1 h' => rw [hi.ci.fAbsent d h1] at hf; simp at hf

/-- While an on-top function has not been left, nothing below it on its stack changes. -/
theorem ontop_persists {s s' : State} {t op d i ls m pre base} (hi : Inv s) (h : step s t op = .ok s')
    (hf : s.frames d = pre ++ .user (.ontop i) ls m :: base) :
    (∃ pre' ls' m', s'.frames d = pre' ++ .user (.ontop i) ls' m' :: base) ∨
    (pre = [] ∧ ls = [] ∧ op = .tick ∧ s.cur t = some d ∧
      ((∃ x, m = .returning (some x) ∧ Cont s' d (s.val x) base (s'.frames d)) ∨
       ∃ e e', m = .unwinding e ∧ Raised s' d e' base (s'.frames d))) := by
  have hg : (∃ n, Frame.user (.ontop i) ls m = .exiting n) ∨ (∃ n, Frame.user (.ontop i) ls m = .dtor n) ∨ 
    ∃ i' ls' m', Frame.user (.ontop i) ls m = .user (.ontop i') ls' m' := .inr (.inr ⟨_, _, _, rfl⟩)
  cases step_evol hi h d with
  | same h => exact .inl ⟨pre, _, _, by rw [h, hf]⟩
  | top hc h1 hp h' =>
    rw [h1] at hf
    rcases cons_split hf with ⟨_, h, rfl⟩ | ⟨p1, rfl, rfl⟩
    · simp at h; obtain ⟨rfl, _, _⟩ := h
      exact .inl ⟨_, _, _, h'⟩
    · exact .inl ⟨_, ls, m, h'.trans (List.append_assoc _ (_ :: p1) _).symm⟩
  | exitTop hc h1 hp h' =>
    rw [h1] at hf
    rcases cons_split hf with ⟨_, h, _⟩ | ⟨p1, rfl, rfl⟩
    · simp at h
    · exact .inl ⟨_, ls, m, h'.trans (List.append_assoc _ (_ :: p1) _).symm⟩
  | pop hc hk h1 h' =>
    rw [h1] at hf
    rcases cons_split hf with ⟨_, h, _⟩ | ⟨p1, rfl, rfl⟩
    · simp at h; obtain ⟨rfl, _⟩ := h; simp at hk
    · exact .inl ⟨p1, _, _, h'⟩
  | prop hc ho h1 h' =>
    rw [h1] at hf
    rcases cons_split hf with ⟨_, h, _⟩ | ⟨p1, rfl, h2⟩
    · simp at h
    · rcases cons_split h2 with ⟨_, h, rfl⟩ | ⟨p2, rfl, rfl⟩
      · simp at h; obtain ⟨rfl, rfl, rfl⟩ := h
        exact .inl ⟨[], _, _, h'⟩
      · exact .inl ⟨_ :: p2, _, _, h'⟩
  | finish hc ho h1 h' hs =>
    rw [h1] at hf
    have := congrArg (Frame.user (.ontop i) ls m ∈ ·) hf
    simp at this
  | endMain hc ho h1 h' =>
    rw [h1] at hf
    have := congrArg (Frame.user (.ontop i) ls m ∈ ·) hf
    simp at this
  | ontopRet hc ho h1 h' =>
    rw [h1] at hf
    rcases cons_split hf with ⟨rfl, h, rfl⟩ | ⟨p1, rfl, h2⟩
    · simp at h; obtain ⟨rfl, rfl, rfl⟩ := h
      exact .inr ⟨rfl, rfl, ho, hc, .inl ⟨_, rfl, h'⟩⟩
    · rcases h'.split h2 hg with ⟨p, h⟩ | ⟨w, h, rfl, _⟩ | ⟨i', ls', x, h, _, h3⟩
      · exact .inl ⟨p, _, _, h⟩
      · simp at h
      · simp at h; obtain ⟨rfl, rfl, rfl⟩ := h; exact .inl ⟨[], _, _, h3⟩
  | ontopThrow hc ho h1 hee h' =>
    rw [h1] at hf
    rcases cons_split hf with ⟨rfl, h, rfl⟩ | ⟨p1, rfl, h2⟩
    · simp at h; obtain ⟨rfl, rfl, rfl⟩ := h
      exact .inr ⟨rfl, rfl, ho, hc, .inr ⟨_, _, rfl, h'⟩⟩
    · rcases h'.split h2 hg with ⟨p, h⟩ | ⟨i', ls', h, _, h3⟩
      · exact .inl ⟨p, _, _, h⟩
      · simp at h; obtain ⟨rfl, rfl, rfl⟩ := h; exact .inl ⟨[], _, _, h3⟩
  | exitDone hc ho h1 hcp hs hl h' =>
    rw [h1] at hf
    rcases cons_split hf with ⟨rfl, h, rfl⟩ | ⟨p1, rfl, h2⟩
    · simp at h
    · rcases h'.split h2 hg with ⟨p, h⟩ | ⟨w, h, rfl, _⟩ | ⟨i', ls', x, h, _, h3⟩
      · exact .inl ⟨p, _, _, h⟩
      · simp at h
      · simp at h; obtain ⟨rfl, rfl, rfl⟩ := h; exact .inl ⟨[], _, _, h3⟩
  | resumed hc ho ha hd hs hr hfc h' =>
    rcases h'.split hf hg with ⟨p, h⟩ | ⟨w, h, rfl, _⟩ | ⟨i', ls', x, h, _, h3⟩
    · exact .inl ⟨p, _, _, h⟩
    · simp at h
    · simp at h; obtain ⟨rfl, rfl, rfl⟩ := h; exact .inl ⟨[], _, _, h3⟩
  | ontop hc ho hd hs hr hv h' => exact .inl ⟨_ :: pre, _, _, by rw [h', hf]; rfl⟩
  | copyThrow hc ho hd hs hr h' =>
    rcases h'.split hf hg with ⟨p, h⟩ | ⟨i', ls', h, _, h3⟩
    · exact .inl ⟨p, _, _, h⟩
    · simp at h; obtain ⟨rfl, rfl, rfl⟩ := h; exact .inl ⟨[], _, _, h3⟩
  | raised hc hd hs hw h' =>
    rcases h'.split hf hg with ⟨p, h⟩ | ⟨i', ls', h, _, h3⟩
    · exact .inl ⟨p, _, _, h⟩
    · simp at h; obtain ⟨rfl, rfl, rfl⟩ := h; exact .inl ⟨[], _, _, h3⟩
  | exitOf hc ho hd hs hr hfc h' => exact .inl ⟨_ :: pre, _, _, by rw [h', hf]; rfl⟩
  | freed h1 h' =>
    rw [h1] at hf
    have := congrArg (Frame.user (.ontop i) ls m ∈ ·) hf
    simp at this
  | created h1 h' => rw [hi.ci.fAbsent d h1] at hf; simp at hf

end Verif.Fiber
