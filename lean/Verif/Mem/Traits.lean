import Verif.Mem.Word

/-!
# `stack_traits` (C44)

The operating system's answers are arbitrary and may differ from call to call; the library's function-local `static` variables remember the first.
-/

namespace Verif.Mem.Traits

/-- function-local statics: page size (src/posix/stack_traits.cpp line 69, windows line 68), stack size limit (posix line 53) -/
structure St (w : Nat) where
  page : Option (BitVec w)
  limit : Option (BitVec 64)

/-- a call, with the answer the operating system would give now: `sysconf(_SC_PAGESIZE)` (a `long`) or `GetSystemInfo`; `getrlimit(RLIMIT_STACK)` -/
inductive Call
  | pageSize (ans : Int)
  | isUnbounded (ans : BitVec 64)
  | maximumSize (ans : BitVec 64)

inductive Res (w : Nat)
  | page (v : BitVec w)
  | unbounded (b : Bool)
  | maximum (v : BitVec w)
  /-- `BOOST_ASSERT( ! is_unbounded() )` failed -/
  | assertion
deriving DecidableEq

variable {w : Nat}

/-- `RLIM_INFINITY` (all bits set, as on Linux) -/
def rlimInfinity : BitVec 64 := BitVec.allOnes 64

/-- src/posix/stack_traits.cpp lines 39-42 and 68-71 -/
def pageSize (s : St w) (ans : Int) : St w × BitVec w :=
  match s.page with
  | some v => (s, v)
  | none => ({ s with page := some (BitVec.ofInt w ans) }, BitVec.ofInt w ans)

/-- src/posix/stack_traits.cpp lines 44-54 -/
def limit (s : St w) (ans : BitVec 64) : St w × BitVec 64 :=
  match s.limit with
  | some v => (s, v)
  | none => ({ s with limit := some ans }, ans)

/-- src/posix/stack_traits.cpp lines 62-87 -/
def call (s : St w) : Call → St w × Res w
  | .pageSize a => let (s, v) := pageSize s a; (s, .page v)
  | .isUnbounded a => let (s, v) := limit s a; (s, .unbounded (rlimInfinity == v))
  | .maximumSize a =>
    let (s, v) := limit s a
    if rlimInfinity == v then (s, .assertion)
    else let (s, v) := limit s a; (s, .maximum (v.setWidth w))

/-- results of a sequence of calls -/
def run (s : St w) : List Call → List (Res w)
  | [] => []
  | c :: cs => (call s c).2 :: run (call s c).1 cs

def init : St w := ⟨none, none⟩

/-- src/posix/stack_traits.cpp lines 73-76 and src/windows/stack_traits.cpp lines 72-76 -/
def defaultSize : Nat := 128 * 1024
/-- posix lines 78-81 with the fallback of lines 25-28; otherwise `MINSIGSTKSZ` is the platform's -/
def minimumSizePosixFallback : Nat := 131072
/-- windows lines 79-83 with the definitions of lines 29-38 -/
def minimumSizeWin64 : Nat := 8 * 1024
def minimumSizeWin32 : Nat := 4 * 1024

/-! ## Theorems -/

theorem limit_page (s : St w) (a : BitVec 64) : (limit s a).1.page = s.page := by
  unfold limit; split <;> rfl

theorem run_page (s : St w) (v : BitVec w) (h : s.page = some v) : ∀ cs v', Res.page v' ∈ run s cs → v' = v := by
  intro cs
  induction cs generalizing s with
  | nil => intro v' h'; cases h'
  | cons c cs ih =>
    intro v' h'
    have hp : (call s c).1.page = some v := by
      cases c
      · simp only [call, pageSize, h]
      · simp only [call, limit_page, h]
      · simp only [call]; split <;> simp only [limit_page, h]
    rcases List.mem_cons.mp h' with h1 | h1
    · cases c
      · simp only [call, pageSize, h] at h1; cases h1; rfl
      · simp only [call] at h1; cases h1
      · simp only [call] at h1; split at h1 <;> cases h1
    · exact ih _ hp v' h1

theorem run_limit (s : St w) (v : BitVec 64) (h : s.limit = some v) : ∀ cs,
    (∀ b, Res.unbounded b ∈ run s cs → b = (rlimInfinity == v)) ∧ (∀ m, Res.maximum m ∈ run s cs → m = v.setWidth w ∧ v ≠ rlimInfinity) ∧
    (Res.assertion ∈ run s cs → v = rlimInfinity) := by
  intro cs
  induction cs generalizing s with
  | nil => exact ⟨fun b h => (by cases h), fun b h => (by cases h), fun h => (by cases h)⟩
  | cons c cs ih =>
    have hp : (call s c).1.limit = some v := by
      cases c <;> simp only [call, pageSize, limit, h]
      · cases s.page <;> simp [h]
      · split <;> simp [h]
    obtain ⟨i1, i2, i3⟩ := ih _ hp
    refine ⟨fun b hb => ?_, fun m hm => ?_, fun ha => ?_⟩
    · rcases List.mem_cons.mp hb with h1 | h1
      · cases c
        · simp only [call] at h1; cases h1
        · simp only [call, limit, h] at h1; cases h1; rfl
        · simp only [call] at h1; split at h1 <;> cases h1
      · exact i1 b h1
    · rcases List.mem_cons.mp hm with h1 | h1
      · cases c
        · simp only [call] at h1; cases h1
        · simp only [call] at h1; cases h1
        · simp only [call, limit, h] at h1
          split at h1
          · cases h1
          · cases h1; rename_i hc; exact ⟨rfl, fun hx => hc (by rw [hx]; exact beq_self_eq_true _)⟩
      · exact i2 m h1
    · rcases List.mem_cons.mp ha with h1 | h1
      · cases c
        · simp only [call] at h1; cases h1
        · simp only [call] at h1; cases h1
        · simp only [call, limit, h] at h1
          split at h1
          · rename_i hc; exact (eq_of_beq hc).symm
          · cases h1
      · exact i3 h1

/-- **C44**: whatever the system answers, all calls of `page_size()` yield the same value. -/
theorem C44_page_constant (cs : List Call) : ∃ v : BitVec w, ∀ v', Res.page v' ∈ run init cs → v' = v := by
  suffices h : ∀ (s : St w), s.page = none → ∃ v : BitVec w, ∀ v', Res.page v' ∈ run s cs → v' = v from h init rfl
  induction cs with
  | nil => exact fun s _ => ⟨0, fun v' h => by cases h⟩
  | cons c cs ih =>
    intro s hs
    cases c with
    | pageSize a =>
      refine ⟨BitVec.ofInt w a, fun v' h => ?_⟩
      simp only [run, call, pageSize, hs] at h
      rcases List.mem_cons.mp h with h | h
      · cases h; rfl
      · exact run_page _ _ rfl cs v' h
    | isUnbounded a =>
      obtain ⟨v, hv⟩ := ih (call s (.isUnbounded a)).1 (by simp only [call, limit_page, hs])
      refine ⟨v, fun v' h => ?_⟩
      rcases List.mem_cons.mp h with h | h
      · simp only [call] at h; cases h
      · exact hv v' h
    | maximumSize a =>
      obtain ⟨v, hv⟩ := ih (call s (.maximumSize a)).1 (by simp only [call]; split <;> simp only [limit_page, hs])
      refine ⟨v, fun v' h => ?_⟩
      rcases List.mem_cons.mp h with h | h
      · simp only [call] at h; split at h <;> cases h
      · exact hv v' h

/-- **C44**: the page size is the first answer of the system: positive if that is positive and fits into `size_t`. -/
theorem C44_page_first (a : Int) (cs : List Call) (v : BitVec w) (h : Res.page v ∈ run init (.pageSize a :: cs)) (h0 : 0 < a) (h1 : a < 2 ^ w) : (v.toNat : Int) = a := by
  have : v = BitVec.ofInt w a := by
    simp only [run, call, pageSize, init] at h
    rcases List.mem_cons.mp h with h | h
    · cases h; rfl
    · exact run_page _ _ rfl cs v h
  rw [this, BitVec.toNat_ofInt]
  have h2 : ((2 ^ w : Nat) : Int) = 2 ^ w := by simp
  rw [h2, Int.emod_eq_of_lt (by omega) h1]
  omega

/-- **C44**: boundedness and maximum size never change, and agree: `maximum_size()` asserts exactly if `is_unbounded()`. -/
theorem C44_limit_constant (cs : List Call) : ∃ v : BitVec 64,
    (∀ b, Res.unbounded b ∈ run (w := w) init cs → b = (rlimInfinity == v)) ∧ (∀ m, Res.maximum m ∈ run (w := w) init cs → m = v.setWidth w ∧ v ≠ rlimInfinity) ∧
    (Res.assertion ∈ run (w := w) init cs → v = rlimInfinity) := by
  suffices h : ∀ (s : St w), s.limit = none → ∃ v : BitVec 64,
    (∀ b, Res.unbounded b ∈ run s cs → b = (rlimInfinity == v)) ∧ (∀ m, Res.maximum m ∈ run s cs → m = v.setWidth w ∧ v ≠ rlimInfinity) ∧
    (Res.assertion ∈ run s cs → v = rlimInfinity) from h init rfl
  induction cs with
  | nil => exact fun s _ => ⟨0, fun b h => (by cases h), fun b h => (by cases h), fun h => (by cases h)⟩
  | cons c cs ih =>
    intro s hs
    cases c with
    | pageSize a =>
      obtain ⟨v, h1, h2, h3⟩ := ih (call s (.pageSize a)).1 (by simp only [call, pageSize]; cases s.page <;> simp [hs])
      refine ⟨v, fun b h => ?_, fun m h => ?_, fun h => ?_⟩
      · rcases List.mem_cons.mp h with h | h
        · simp only [call] at h; cases h
        · exact h1 b h
      · rcases List.mem_cons.mp h with h | h
        · simp only [call] at h; cases h
        · exact h2 m h
      · rcases List.mem_cons.mp h with h | h
        · simp only [call] at h; cases h
        · exact h3 h
    | isUnbounded a =>
      have e : (call s (.isUnbounded a)).1.limit = some a := by simp only [call, limit, hs]
      obtain ⟨h1, h2, h3⟩ := run_limit _ a e cs
      refine ⟨a, fun b h => ?_, fun m h => ?_, fun h => ?_⟩
      · rcases List.mem_cons.mp h with h | h
        · simp only [call, limit, hs] at h; cases h; rfl
        · exact h1 b h
      · rcases List.mem_cons.mp h with h | h
        · simp only [call] at h; cases h
        · exact h2 m h
      · rcases List.mem_cons.mp h with h | h
        · simp only [call] at h; cases h
        · exact h3 h
    | maximumSize a =>
      have e : (call s (.maximumSize a)).1.limit = some a := by simp only [call, limit, hs]; split <;> rfl
      obtain ⟨h1, h2, h3⟩ := run_limit _ a e cs
      refine ⟨a, fun b h => ?_, fun m h => ?_, fun h => ?_⟩
      · rcases List.mem_cons.mp h with h | h
        · simp only [call] at h; split at h <;> cases h
        · exact h1 b h
      · rcases List.mem_cons.mp h with h | h
        · simp only [call, limit, hs] at h
          split at h
          · cases h
          · cases h; rename_i hc; exact ⟨rfl, fun hx => hc (by rw [hx]; exact beq_self_eq_true _)⟩
        · exact h2 m h
      · rcases List.mem_cons.mp h with h | h
        · simp only [call, limit, hs] at h
          split at h
          · rename_i hc; exact (eq_of_beq hc).symm
          · cases h
        · exact h3 h

/-- **C44**: the documented sizes: 128 KiB by default; at least 4 KiB (8 KiB for 64-bit programs) on Windows. -/
theorem C44_sizes : defaultSize = 2 ^ 17 ∧ minimumSizeWin32 = 2 ^ 12 ∧ minimumSizeWin64 = 2 ^ 13 ∧ minimumSizePosixFallback = 2 ^ 17 := by decide

/-- **C44**: the library's own constants satisfy minimum ≤ default. -/
theorem C44_minimum_default : minimumSizePosixFallback ≤ defaultSize ∧ minimumSizeWin64 ≤ defaultSize ∧ minimumSizeWin32 ≤ defaultSize := by decide

/-- **C44**, limitation: with a stack limit below 128 KiB the default size exceeds the maximum size. -/
theorem C44_default_exceeds_maximum (a : BitVec 64) (h : a.toNat < defaultSize) : ∃ m : BitVec 64, run init [.maximumSize a] = [.maximum m] ∧ m.toNat < defaultSize := by
  refine ⟨a, ?_, h⟩
  have : (rlimInfinity == a) = false := by
    rw [beq_eq_false_iff_ne]
    rintro rfl
    exact absurd h (by decide)
  simp [run, call, limit, init, this]

/-- answers of the system that change between calls -/
example : run (w := 64) init [.pageSize 4096, .isUnbounded 8388608#64, .pageSize 65536, .maximumSize 1#64] =
    [.page 4096#64, .unbounded false, .page 4096#64, .maximum 8388608#64] := by decide
example : (65536#64).toNat < defaultSize := by decide

end Verif.Mem.Traits
