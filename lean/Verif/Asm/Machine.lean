/-!
# A machine for the hand-written assembler of Boost.Context

The routines `jump_fcontext`, `make_fcontext` and `ontop_fcontext` (`/repo/src/asm/*`) use, on every modelled platform, only:
moves, immediate arithmetic on pointers, word and floating point loads and stores relative to a base register, moves between
general and special registers, addresses of local labels, a conditional branch (s390x, ppc64 ELFv1) and indirect jumps.
This file gives these instructions a semantics over a byte addressed memory with addresses modulo `2^(8k)`.

Simplifications, valid for all platforms:
* instruction fetch, timing, flags and caches are not modelled; prefetch/`endbr`/CET marker instructions are omitted;
* a multi-byte access reads/writes its bytes in little-endian order (no routine reads a location with another width than it was
  written with, so the order is irrelevant);
* memory is total: access rights are not modelled.
-/

namespace Verif.Asm

/-- A platform: word size in bytes, general purpose registers, special registers (floating point, control words, ...) with their
sizes in bytes, local labels. -/
structure Arch where
  k : Nat
  R : Type
  F : Type
  Lab : Type
  [decR : DecidableEq R]
  [decF : DecidableEq F]
  [decL : DecidableEq Lab]
  fb : F → Nat

attribute [instance] Arch.decR Arch.decF Arch.decL

variable {A : Arch}

abbrev Arch.W (A : Arch) := BitVec (8 * A.k)
abbrev Mem (A : Arch) := A.W → BitVec 8

/-- address `a` lies in the `n` bytes starting at `b` (modulo wrap-around) -/
def InR (a b : A.W) (n : Nat) : Prop := (a - b).toNat < n

/-- `n` bytes at `a` -/
def load (m : Mem A) (a : A.W) : (n : Nat) → BitVec (8 * n)
  | 0 => 0#0
  | n + 1 => load m (a + 1#_) n ++ m a

/-- write the `n` bytes of `v` at `a` -/
def store (m : Mem A) (a : A.W) (n : Nat) (v : BitVec (8 * n)) : Mem A :=
  fun x => if (x - a).toNat < n then v.extractLsb' (8 * (x - a).toNat) 8 else m x

structure St (A : Arch) where
  gpr : A.R → A.W
  fpr : (f : A.F) → BitVec (8 * A.fb f)
  mem : Mem A

/-- register update -/
def setg (s : St A) (r : A.R) (v : A.W) : St A := { s with gpr := fun x => if x = r then v else s.gpr x }

def setf (s : St A) (f : A.F) (v : BitVec (8 * A.fb f)) : St A :=
  { s with fpr := fun x => if h : x = f then h ▸ v else s.fpr x }

/-- Instructions; the names of the first column of each platform file refer to these.
Offsets are unsigned byte counts; immediates are words. -/
inductive Instr (A : Arch)
  /-- register move -/
  | mov (d s : A.R)
  /-- `d := imm` -/
  | movi (d : A.R) (imm : A.W)
  /-- `d := s + imm` (lea, add, sub with immediate) -/
  | addi (d s : A.R) (imm : A.W)
  /-- `d := s & imm` -/
  | andi (d s : A.R) (imm : A.W)
  /-- `d := s & s'` -/
  | and (d s s' : A.R)
  /-- `d := -s` -/
  | neg (d s : A.R)
  /-- `d := s + s'` -/
  | add (d s s' : A.R)
  /-- `d := s - s'` -/
  | sub (d s s' : A.R)
  /-- word load -/
  | ld (d b : A.R) (off : Nat)
  /-- word store -/
  | st (s b : A.R) (off : Nat)
  /-- store of an immediate word -/
  | sti (imm : A.W) (b : A.R) (off : Nat)
  /-- special register load/store -/
  | fld (f : A.F) (b : A.R) (off : Nat)
  | fst (f : A.F) (b : A.R) (off : Nat)
  /-- `d := f` (zero-extended) and `f := s` (truncated) -/
  | mfs (d : A.R) (f : A.F)
  | mts (f : A.F) (s : A.R)
  /-- the same for a word of the thread's control block, whose address is `l`, relative to `b`: if `b` does not hold that address, something else is read (here: 0)
  and the word is not written (simplification: nothing else is written either) -/
  | mfb (d : A.R) (f : A.F) (b : A.R) (l : A.Lab)
  | mtb (f : A.F) (s : A.R) (b : A.R) (l : A.Lab)
  /-- move between special registers (zero-extended or truncated) -/
  | fmov (f g : A.F)
  /-- `d := address of label l` -/
  | la (d : A.R) (l : A.Lab)
  /-- `d := d + (l - l')` for labels -/
  | addl (d : A.R) (l l' : A.Lab)

abbrev Env (A : Arch) := A.Lab → A.W

def off (A : Arch) (o : Nat) : A.W := BitVec.ofNat (8 * A.k) o

def step (e : Env A) (s : St A) : Instr A → St A
  | .mov d r => setg s d (s.gpr r)
  | .movi d i => setg s d i
  | .addi d r i => setg s d (s.gpr r + i)
  | .andi d r i => setg s d (s.gpr r &&& i)
  | .and d r r' => setg s d (s.gpr r &&& s.gpr r')
  | .neg d r => setg s d (-s.gpr r)
  | .add d r r' => setg s d (s.gpr r + s.gpr r')
  | .sub d r r' => setg s d (s.gpr r - s.gpr r')
  | .ld d b o => setg s d (load s.mem (s.gpr b + off A o) A.k)
  | .st r b o => { s with mem := store s.mem (s.gpr b + off A o) A.k (s.gpr r) }
  | .sti i b o => { s with mem := store s.mem (s.gpr b + off A o) A.k i }
  | .fld f b o => setf s f (load s.mem (s.gpr b + off A o) (A.fb f))
  | .fst f b o => { s with mem := store s.mem (s.gpr b + off A o) (A.fb f) (s.fpr f) }
  | .mfs d f => setg s d ((s.fpr f).setWidth _)
  | .mts f r => setf s f ((s.gpr r).setWidth _)
  | .mfb d f b l => setg s d (if s.gpr b = e l then (s.fpr f).setWidth _ else 0#_)
  | .mtb f r b l => setf s f (if s.gpr b = e l then (s.gpr r).setWidth _ else s.fpr f)
  | .fmov f g => setf s f ((s.fpr g).setWidth _)
  | .la d l => setg s d (e l)
  | .addl d l l' => setg s d (s.gpr d + (e l - e l'))

/-- straight-line code -/
def steps (e : Env A) : List (Instr A) → St A → St A
  | [], s => s
  | i :: is, s => steps e is (step e s i)

/-- A routine: straight-line code, then an indirect jump to the address in a register, or a branch on a register being zero. -/
inductive Code (A : Arch)
  | jmp (is : List (Instr A)) (r : A.R)
  | brz (is : List (Instr A)) (r : A.R) (z nz : Code A)

/-- Runs a routine to its end; the result is the state and the address control goes to. -/
def exec (e : Env A) : Code A → St A → St A × A.W
  | .jmp is r, s => let s := steps e is s; (s, s.gpr r)
  | .brz is r z nz, s => let s := steps e is s; if s.gpr r = 0#_ then exec e z s else exec e nz s

/-! ## Facts about memory -/

theorem load_getLsbD (m : Mem A) (a : A.W) (n i : Nat) (h : i < 8 * n) :
    (load m a n).getLsbD i = (m (a + BitVec.ofNat _ (i / 8))).getLsbD (i % 8) := by
  induction n generalizing a i with
  | zero => omega
  | succ n ih =>
    simp only [load]
    erw [BitVec.getLsbD_append]
    by_cases h8 : i < 8
    · have h0 : i / 8 = 0 := by omega
      have h1 : i % 8 = i := by omega
      simp [h8, h0, h1]
    · simp only [h8, if_false]
      rw [ih (a + 1#_) (i - 8) (by omega)]
      have h0 : i / 8 = (i - 8) / 8 + 1 := by omega
      have h1 : (i - 8) % 8 = i % 8 := by omega
      rw [h0, h1, BitVec.ofNat_add, BitVec.add_assoc, BitVec.add_comm 1#_]

theorem load_congr {m m' : Mem A} {a : A.W} {n : Nat} (hn : n ≤ 2 ^ (8 * A.k)) (h : ∀ x, InR x a n → m x = m' x) :
    load m a n = load m' a n := by
  apply BitVec.eq_of_getLsbD_eq
  intro i hi
  rw [load_getLsbD _ _ _ _ hi, load_getLsbD _ _ _ _ hi, h]
  unfold InR
  have : a + BitVec.ofNat (8 * A.k) (i / 8) - a = BitVec.ofNat _ (i / 8) := by
    rw [BitVec.add_comm, BitVec.add_sub_cancel]
  rw [this, BitVec.toNat_ofNat]
  exact Nat.lt_of_le_of_lt (Nat.mod_le _ _) (by omega)

theorem load_store_same (m : Mem A) (a : A.W) (n : Nat) (v : BitVec (8 * n)) (hn : n ≤ 2 ^ (8 * A.k)) :
    load (store m a n v) a n = v := by
  apply BitVec.eq_of_getLsbD_eq
  intro i hi
  have h1 : a + BitVec.ofNat (8 * A.k) (i / 8) - a = BitVec.ofNat _ (i / 8) := by
    rw [BitVec.add_comm, BitVec.add_sub_cancel]
  have h2 : i / 8 < n := by omega
  have h3 : (BitVec.ofNat (8 * A.k) (i / 8)).toNat = i / 8 := by
    rw [BitVec.toNat_ofNat, Nat.mod_eq_of_lt (by omega)]
  rw [load_getLsbD _ _ _ _ hi]
  simp only [store, h1, h3, h2, if_true, BitVec.getLsbD_extractLsb']
  have : i % 8 < 8 := by omega
  have h4 : 8 * (i / 8) + i % 8 = i := by omega
  simp [this, h4]

theorem store_out {m : Mem A} {a x : A.W} {n : Nat} {v : BitVec (8 * n)} (h : ¬ InR x a n) : store m a n v x = m x := by
  simp only [store, InR] at *
  rw [if_neg h]

theorem load_store_out {m : Mem A} {a b : A.W} {n n' : Nat} {v : BitVec (8 * n)} (hn : n' ≤ 2 ^ (8 * A.k))
    (h : ∀ x, InR x b n' → ¬ InR x a n) : load (store m a n v) b n' = load m b n' :=
  load_congr hn fun x hx => store_out (h x hx)

/-! ## Regions -/

theorem inR_mono {a b : A.W} {n n' : Nat} (h : InR a b n) (hn : n ≤ n') : InR a b n' := Nat.lt_of_lt_of_le h hn

/-- distance of `x` from `b + o` -/
theorem sub_off (x b : A.W) (o : Nat) (ho : o < 2 ^ (8 * A.k)) :
    (x - (b + off A o)).toNat = ((x - b).toNat + (2 ^ (8 * A.k) - o)) % 2 ^ (8 * A.k) := by
  simp only [off, BitVec.toNat_sub, BitVec.toNat_add, BitVec.toNat_ofNat]
  have h1 := x.isLt
  have h2 := b.isLt
  rw [Nat.mod_eq_of_lt ho]
  generalize 2 ^ (8 * A.k) = N at *
  generalize x.toNat = x at *
  generalize b.toNat = b at *
  have hb : (b + o) % N = if b + o < N then b + o else b + o - N := by
    split
    · exact Nat.mod_eq_of_lt ‹_›
    · rw [Nat.mod_eq_sub_mod (by omega), Nat.mod_eq_of_lt (by omega)]
  have red : ∀ z, z < N → ∀ y, y = z ∨ y = z + N ∨ y = z + N + N → y % N = z := by
    rintro z hz y (rfl | rfl | rfl)
    · exact Nat.mod_eq_of_lt hz
    · rw [Nat.add_mod_right, Nat.mod_eq_of_lt hz]
    · rw [Nat.add_mod_right, Nat.add_mod_right, Nat.mod_eq_of_lt hz]
  rw [hb]
  by_cases hx : b ≤ x
  · rw [red (x - b) (by omega) (N - b + x) (by omega)]
    split
    · by_cases hq : b + o ≤ x
      · rw [red (x - b - o) (by omega) _ (by omega), red (x - b - o) (by omega) _ (by omega)]
      · rw [red (x + N - b - o) (by omega) _ (by omega), red (x + N - b - o) (by omega) _ (by omega)]
    · by_cases hq : o ≤ x - b
      · omega
      · rw [red (x + N - b - o) (by omega) _ (by omega), red (x + N - b - o) (by omega) _ (by omega)]
  · rw [red (N - b + x) (by omega) (N - b + x) (by omega)]
    split
    · by_cases hq : o ≤ N - b + x
      · rw [red (N - b + x - o) (by omega) _ (by omega), red (N - b + x - o) (by omega) _ (by omega)]
      · omega
    · by_cases hq : o ≤ N - b + x
      · rw [red (N - b + x - o) (by omega) _ (by omega), red (N - b + x - o) (by omega) _ (by omega)]
      · rw [red (N - b + x + N - o) (by omega) _ (by omega), red (N - b + x + N - o) (by omega) _ (by omega)]

/-- an access at offset `o` of a region lies in the region -/
theorem inR_off {x b : A.W} {o n N : Nat} (h : InR x (b + off A o) n) (hN : o + n ≤ N) (hw : N ≤ 2 ^ (8 * A.k)) : InR x b N := by
  unfold InR at *
  have hn : 0 < n := by omega
  rw [sub_off _ _ _ (by omega)] at h
  have := (x - b).isLt
  by_cases hq : o ≤ (x - b).toNat
  · have e : (x - b).toNat + (2 ^ (8 * A.k) - o) = ((x - b).toNat - o) + 2 ^ (8 * A.k) := by omega
    rw [e, Nat.add_mod_right, Nat.mod_eq_of_lt (by omega)] at h
    omega
  · omega

/-- accesses at offsets that do not overlap are disjoint -/
theorem inR_disj {x b : A.W} {o n o' n' : Nat} (h : InR x (b + off A o) n) (hw : o + n ≤ 2 ^ (8 * A.k)) (hw' : o' + n' ≤ 2 ^ (8 * A.k))
    (hd : o + n ≤ o' ∨ o' + n' ≤ o) : ¬ InR x (b + off A o') n' := by
  unfold InR at *
  intro h'
  rw [sub_off _ _ _ (by omega)] at h h'
  have := (x - b).isLt
  have key : ∀ o, o < 2 ^ (8 * A.k) → ((x - b).toNat + (2 ^ (8 * A.k) - o)) % 2 ^ (8 * A.k) =
      if o ≤ (x - b).toNat then (x - b).toNat - o else (x - b).toNat + (2 ^ (8 * A.k) - o) := by
    intro o ho
    split
    · have e : (x - b).toNat + (2 ^ (8 * A.k) - o) = ((x - b).toNat - o) + 2 ^ (8 * A.k) := by omega
      rw [e, Nat.add_mod_right, Nat.mod_eq_of_lt (by omega)]
    · exact Nat.mod_eq_of_lt (by omega)
  rw [key o (by omega)] at h
  rw [key o' (by omega)] at h'
  split at h <;> split at h' <;> omega

/-! ## Blocks of saves and restores -/

/-- a register of either file -/
inductive Slot (A : Arch)
  | g (r : A.R)
  | f (q : A.F)

deriving instance DecidableEq for Slot

def Slot.size : Slot A → Nat
  | .g _ => A.k
  | .f q => A.fb q

def St.get (s : St A) : (x : Slot A) → BitVec (8 * x.size)
  | .g r => s.gpr r
  | .f q => s.fpr q

def saves (b : A.R) : List (Slot A × Nat) → List (Instr A)
  | [] => []
  | (.g r, o) :: l => .st r b o :: saves b l
  | (.f q, o) :: l => .fst q b o :: saves b l

def loads (b : A.R) : List (Slot A × Nat) → List (Instr A)
  | [] => []
  | (.g r, o) :: l => .ld r b o :: loads b l
  | (.f q, o) :: l => .fld q b o :: loads b l

theorem steps_append (e : Env A) (l l' : List (Instr A)) (s : St A) : steps e (l ++ l') s = steps e l' (steps e l s) := by
  induction l generalizing s with
  | nil => rfl
  | cons i l ih => simp [steps, ih]

/-- slots with offsets: inside `N` bytes, not overlapping -/
def Fits (A : Arch) (N : Nat) (l : List (Slot A × Nat)) : Prop :=
  (∀ x ∈ l, x.2 + x.1.size ≤ N) ∧ l.Pairwise fun x y => x.2 + x.1.size ≤ y.2 ∨ y.2 + y.1.size ≤ x.2

instance (N : Nat) (l : List (Slot A × Nat)) : Decidable (Fits A N l) := by unfold Fits; infer_instance

/-- Executing saves: registers unchanged, memory unchanged outside the frame, every slot holds its register. -/
theorem steps_saves (e : Env A) (b : A.R) (l : List (Slot A × Nat)) (N : Nat) (hl : Fits A N l) (hN : N ≤ 2 ^ (8 * A.k)) (s : St A) :
    ∃ m, steps e (saves b l) s = { s with mem := m } ∧ (∀ x, ¬ InR x (s.gpr b) N → m x = s.mem x) ∧
      (∀ o n, (∀ x ∈ l, x.2 + x.1.size ≤ o ∨ o + n ≤ x.2) → o + n ≤ N →
        load m (s.gpr b + off A o) n = load s.mem (s.gpr b + off A o) n) ∧
      ∀ x ∈ l, load m (s.gpr b + off A x.2) x.1.size = s.get x.1 := by
  induction l generalizing s with
  | nil => exact ⟨s.mem, rfl, fun _ _ => rfl, fun _ _ _ _ => rfl, by simp⟩
  | cons a l ih =>
    obtain ⟨y, o⟩ := a
    have hy : o + y.size ≤ N := hl.1 (y, o) (by simp)
    have hl' : Fits A N l := ⟨fun x hx => hl.1 x (by simp [hx]), (List.pairwise_cons.1 hl.2).2⟩
    have hd := (List.pairwise_cons.1 hl.2).1
    have hst : steps e (saves b ((y, o) :: l)) s = steps e (saves b l) { s with mem := store s.mem (s.gpr b + off A o) y.size (s.get y) } := by
      cases y <;> rfl
    obtain ⟨m, h1, h2, h3, h4⟩ := ih hl' { s with mem := store s.mem (s.gpr b + off A o) y.size (s.get y) }
    simp only at h1 h2 h3 h4
    refine ⟨m, by rw [hst, h1], ?_, ?_, ?_⟩
    · intro x hx
      rw [h2 x hx, store_out]
      exact fun hh => hx (inR_off hh hy hN)
    · intro o' n hx hb
      rw [h3 o' n (fun x hx' => hx x (by simp [hx'])) hb, load_store_out (by omega)]
      intro x hx'
      have := hx (y, o) (by simp)
      simp only at this
      exact inR_disj hx' (by omega) (by omega) (by omega)
    · intro x hx
      rcases List.mem_cons.1 hx with rfl | hx
      · simp only
        rw [h3 o y.size (fun z hz => by have := hd z hz; simp only at this; omega) hy, load_store_same _ _ _ _ (by omega)]
      · have := h4 x hx
        rw [this]
        cases x.1 <;> rfl

theorem setg_gpr (s : St A) (r : A.R) (v : A.W) (x : A.R) : (setg s r v).gpr x = if x = r then v else s.gpr x := rfl
theorem setg_fpr (s : St A) (r : A.R) (v : A.W) : (setg s r v).fpr = s.fpr := rfl
theorem setg_mem (s : St A) (r : A.R) (v : A.W) : (setg s r v).mem = s.mem := rfl
theorem setf_gpr (s : St A) (f : A.F) (v) : (setf s f v).gpr = s.gpr := rfl
theorem setf_mem (s : St A) (f : A.F) (v) : (setf s f v).mem = s.mem := rfl
theorem setf_same (s : St A) (f : A.F) (v) : (setf s f v).fpr f = v := by simp [setf]
theorem setf_ne (s : St A) (f g : A.F) (v) (h : g ≠ f) : (setf s f v).fpr g = s.fpr g := by simp [setf, h]

/-- Executing restores. -/
theorem steps_loads (e : Env A) (b : A.R) (l : List (Slot A × Nat)) (hb : ∀ x ∈ l, x.1 ≠ .g b) (hn : (l.map (·.1)).Nodup) (s : St A) :
    (steps e (loads b l) s).mem = s.mem ∧
      (∀ x ∈ l, (steps e (loads b l) s).get x.1 = load s.mem (s.gpr b + off A x.2) x.1.size) ∧
      ∀ x, x ∉ l.map (·.1) → (steps e (loads b l) s).get x = s.get x := by
  induction l generalizing s with
  | nil => exact ⟨rfl, by simp, fun _ _ => rfl⟩
  | cons a l ih =>
    obtain ⟨y, o⟩ := a
    have hb' : ∀ x ∈ l, x.1 ≠ .g b := fun x hx => hb x (by simp [hx])
    have hyb := hb (y, o) (by simp)
    simp only [List.map_cons, List.nodup_cons] at hn
    cases y with
    | g r =>
      have hr : b ≠ r := fun h => hyb (by simp [h])
      obtain ⟨h1, h2, h3⟩ := ih hb' hn.2 (setg s r (load s.mem (s.gpr b + off A o) A.k))
      simp only [loads, steps, step]
      refine ⟨h1, ?_, ?_⟩
      · intro x hx
        rcases List.mem_cons.1 hx with rfl | hx
        · rw [h3 _ hn.1]; simp [St.get, setg, Slot.size]
        · rw [h2 x hx]; simp [setg, hr]
      · intro x hx
        simp only [List.map_cons, List.mem_cons, not_or] at hx
        rw [h3 x hx.2]
        cases x with
        | g q =>
          have : q ≠ r := fun h => hx.1 (by rw [h])
          exact (setg_gpr s r _ q).trans (if_neg this)
        | f q => rfl
    | f r =>
      obtain ⟨h1, h2, h3⟩ := ih hb' hn.2 (setf s r (load s.mem (s.gpr b + off A o) (A.fb r)))
      simp only [loads, steps, step]
      refine ⟨h1, ?_, ?_⟩
      · intro x hx
        rcases List.mem_cons.1 hx with rfl | hx
        · rw [h3 _ hn.1]; simp [St.get, setf, Slot.size]
        · rw [h2 x hx]; simp [setf]
      · intro x hx
        simp only [List.map_cons, List.mem_cons, not_or] at hx
        rw [h3 x hx.2]
        cases x with
        | g q => rfl
        | f q =>
          have : q ≠ r := fun h => hx.1 (by rw [h])
          exact setf_ne s r q _ this

end Verif.Asm
