import Verif.Migrate.Spec

/-! # C98: exchanging the names of two objects (vocabulary) -/

namespace Verif.Names
open Verif.Fiber (Var Exc Mode)

/-- the object that has the part of `z` after `x` and `y` have exchanged their parts -/
abbrev name (x y z : Var) : Var := Migrate.other x y z

def exc (x y : Var) : Exc → Exc
  | .user n => .user n
  | .forced z => .forced (name x y z)

def mode (x y : Var) : Mode → Mode
  | .normal => .normal
  | .unwinding e => .unwinding (exc x y e)
  | .returning z => .returning (z.map (name x y))

/-- `x` and `y` are names of objects that have been created before the `n`-th -/
def Old (x y n : Var) : Prop := ∀ m, n ≤ m → name x y m = m

theorem old_of {x y n : Var} (hx : x < n) (hy : y < n) : Old x y n := fun _ hm => Migrate.other_new (Nat.lt_of_lt_of_le hx hm) (Nat.lt_of_lt_of_le hy hm)
theorem Old.mono {x y n m : Var} (h : Old x y n) (hn : n ≤ m) : Old x y m := fun k hk => h k (Nat.le_trans hn hk)
theorem Old.eq {x y n : Var} (h : Old x y n) : name x y n = n := h n (Nat.le_refl _)

theorem name_inj {x y a b : Var} : name x y a = name x y b ↔ a = b := by
  constructor
  · intro h; have := congrArg (name x y) h; simpa only [name, Migrate.other_other] using this
  · rintro rfl; rfl

theorem mem_names {x y a : Var} {l : List Var} : name x y a ∈ l.map (name x y) ↔ a ∈ l := by
  simp only [List.mem_map, name_inj, exists_eq_right]

theorem erase_names {x y a : Var} {l : List Var} : (l.map (name x y)).erase (name x y a) = (l.erase a).map (name x y) := by
  induction l with
  | nil => rfl
  | cons b l ih =>
    simp only [List.map_cons, List.erase_cons, beq_iff_eq, name_inj]
    split
    · rfl
    · rw [ih]; rfl

theorem upd_name {β : Type} {x y z : Var} (f : Var → β) (b : β) : (fun v => Fiber.upd f z b (name x y v)) = Fiber.upd (fun v => f (name x y v)) (name x y z) b := by
  funext v
  simp only [Fiber.upd]
  by_cases h : v = name x y z
  · subst h; simp [name, Migrate.other_other]
  · rw [if_neg h, if_neg (fun e => h (Migrate.other_eq.1 e))]

theorem upd_map {α β γ : Type} [DecidableEq α] (g : β → γ) (f : α → β) (a : α) (b : β) : (fun c => g (Fiber.upd f a b c)) = Fiber.upd (fun c => g (f c)) a (g b) := by
  funext c; simp only [Fiber.upd]; split <;> rfl

end Verif.Names
