import Verif.Fiber.Model

/-! # C96: exchanging threads (vocabulary) -/

namespace Verif.Migrate
open Verif.Fiber (Tid Status)

/-- the thread that has the part of `v` after `t` and `u` have exchanged what they execute -/
def other (t u v : Tid) : Tid := if v = t then u else if v = u then t else v

/-- status of a context after the exchange -/
def status (t u : Tid) : Status → Status
  | .running v => .running (other t u v)
  | s => s

theorem other_other (t u v : Tid) : other t u (other t u v) = v := by
  unfold other; split <;> split <;> simp_all <;> split <;> simp_all

theorem other_eq {t u v w : Tid} : (other t u v = w) ↔ v = other t u w := by
  constructor
  · rintro rfl; exact (other_other ..).symm
  · rintro rfl; exact other_other ..

theorem other_new {t u n : Tid} (ht : t < n) (hu : u < n) : other t u n = n := by
  have h1 : n ≠ t := Nat.ne_of_gt ht
  have h2 : n ≠ u := Nat.ne_of_gt hu
  simp [other, h1, h2]

/-- a history in which the threads are exchanged -/
def history {α : Type} (t u : Tid) (h : List (Tid × α)) : List (Tid × α) := h.map fun a => (other t u a.1, a.2)

@[simp] theorem status_susp {t u : Tid} {s : Status} : status t u s = .suspended ↔ s = .suspended := by cases s <;> simp [status]
@[simp] theorem status_raw {t u : Tid} {s : Status} : status t u s = .raw ↔ s = .raw := by cases s <;> simp [status]
@[simp] theorem status_term {t u : Tid} {s : Status} : status t u s = .terminated ↔ s = .terminated := by cases s <;> simp [status]
@[simp] theorem status_freed {t u : Tid} {s : Status} : status t u s = .freed ↔ s = .freed := by cases s <;> simp [status]
@[simp] theorem status_ended {t u : Tid} {s : Status} : status t u s = .ended ↔ s = .ended := by cases s <;> simp [status]
@[simp] theorem status_absent {t u : Tid} {s : Status} : status t u s = .absent ↔ s = .absent := by cases s <;> simp [status]

end Verif.Migrate
