import Verif.Asm.MicroSpec

/-!
# Overlapping switches exist (C82)

Non-vacuity of the hypotheses of `Micro.Spec`: on two threads, one context is in the middle of a switch while another one makes a round trip.
(No code of `/repo` is modelled in this file.)
-/

namespace Verif.Asm
namespace Micro
open Many

variable {A : Arch} {P : Port A} {X : Extra P} {D : Reads A} {e : Env A} {M M' : MCfg A} {f : Env A → St A → A.W}

/-- what a suspended context or a call in progress uses is not on the stack of a context that runs user code -/
theorem used_apart (hJ : P.JumpSpec) (hO : X.OntopS f) (hM : X.MakeS) (F : Footprint X D) (L : Local X D) (h : MReach X D e M) {i j t : Nat} {r : Regs A} {x : MCtx A} {a : A.W}
    (hi : M.ctx i = some (.user t r)) (hj : M.ctx j = some x) (hu : used X D e x a) : ¬ M.stk i a := by
  obtain ⟨c, h1, h2⟩ := reach_sim hJ hO hM F L h
  have hin : M.ctx i ≠ none := by rw [hi]; simp
  have hjn : M.ctx j ≠ none := by rw [hj]; simp
  have hcj := h2.ctx j
  rw [hj] at hcj
  have fin : j ≠ i → M.stk j a → ¬ M.stk i a := fun hne hs => h2.disj j i a hjn hin hne hs
  cases x with
  | user t r => exact hu.elim
  | born => exact hu.elim
  | fresh d =>
    obtain ⟨s, h3, h4⟩ := hcj
    refine fin (fun hh => by rw [hh, hi] at hj; cases hj) ?_
    rw [← h2.stk j _ hj (by simp)]
    exact h2.inv.held_stk h3 (show InR a _ _ by rw [h4]; exact hu)
  | susp d =>
    obtain ⟨s, h3, h4⟩ := hcj
    refine fin (fun hh => by rw [hh, hi] at hj; cases hj) ?_
    rw [← h2.stk j _ hj (by simp)]
    exact h2.inv.held_stk h3 (show InR a _ _ by rw [h4]; exact hu)
  | busy t' l σ p r' rs =>
    have hb := h2.busy _ _ _ _ _ _ _ hj
    have hji : j ≠ i := fun hh => by rw [hh, hi] at hj; cases hj
    have key : (M.stk j a ∨ ∃ k, tgt l = some k ∧ M.stk k a) ∨ ∀ m, M.ctx m ≠ none → ¬ M.stk m a := by
      rcases hu with h1 | h1 | h1
      · rcases hb.ready.area h1 with h2 | h2
        · exact .inl (.inl h2)
        · exact .inr h2
      · rcases hb.rd a h1 with h2 | h2 | h2
        · exact .inl (.inl h2)
        · exact .inl (.inr h2)
        · exact .inr h2
      · exact .inl (hb.wr a h1)
    rcases key with (h3 | ⟨k, h3, h4⟩) | h3
    · exact fin hji h3
    · have hk := hb.ready.tgt_live h3
      refine h2.disj k i a hk.1 hin (fun hh => ?_) h4
      rw [hh] at hk; exact hk.2.1 _ _ hi
    · exact h3 i hin

/-- the data of a context that was made and not started is on its stack -/
theorem fresh_stk (hJ : P.JumpSpec) (hO : X.OntopS f) (hM : X.MakeS) (F : Footprint X D) (L : Local X D) (h : MReach X D e M) {j : Nat} {d a : A.W}
    (hj : M.ctx j = some (.fresh d)) (ha : InR a d P.mkeep) : M.stk j a := by
  obtain ⟨c, h1, h2⟩ := reach_sim hJ hO hM F L h
  have hcj := h2.ctx j
  rw [hj] at hcj
  obtain ⟨s, h3, h4⟩ := hcj
  rw [← h2.stk j _ hj (by simp)]
  exact h2.inv.held_stk h3 (show InR a _ _ by rw [h4]; exact ha)

/-! ## A routine can be executed to its end -/

def Code.size : Code A → Nat
  | .jmp is _ => is.length + 1
  | .brz is _ z nz => is.length + 1 + Code.size z + Code.size nz

def size : List (Code A) → Nat
  | [] => 0
  | c :: cs => Code.size c + size cs

theorem mic_size {cs cs' : List (Code A)} {s s' : St A} (h : mic e cs s = some (cs', s')) : size cs' < size cs ∧ cs' ≠ [] := by
  match cs with
  | [] => cases h
  | .jmp (i :: is) r :: cs => simp only [mic, Option.some.injEq, Prod.mk.injEq] at h; obtain ⟨rfl, -⟩ := h; simp [size, Code.size]
  | [.jmp [] r] => cases h
  | .jmp [] r :: c :: cs => simp only [mic, Option.some.injEq, Prod.mk.injEq] at h; obtain ⟨rfl, -⟩ := h; simp [size, Code.size]
  | .brz (i :: is) r z nz :: cs => simp only [mic, Option.some.injEq, Prod.mk.injEq] at h; obtain ⟨rfl, -⟩ := h; simp only [size, Code.size, List.length_cons]; exact ⟨by omega, by simp⟩
  | .brz [] r z nz :: cs =>
    simp only [mic, Option.some.injEq, Prod.mk.injEq] at h
    obtain ⟨rfl, -⟩ := h
    refine ⟨?_, by simp⟩
    by_cases hz : s.gpr r = 0#_ <;> simp only [hz, if_true, if_false, size, Code.size, List.length_nil] <;> omega

theorem upd_upd {β : Type _} (g : Nat → β) (i : Nat) (v w : β) : upd (upd g i v) i w = upd g i w := by
  funext k
  by_cases h : k = i <;> simp [upd, h]

theorem upd_comm {β : Type _} (g : Nat → β) {i j : Nat} (v w : β) (h : i ≠ j) : upd (upd g i v) j w = upd (upd g j w) i v := by
  funext k
  by_cases h1 : k = i
  · subst h1; simp [upd, h]
  · by_cases h2 : k = j
    · subst h2; simp [upd, h1]
    · simp [upd, h1, h2]

theorem upd_eq {β : Type _} (g : Nat → β) {i : Nat} {v : β} (h : g i = v) : upd g i v = g := by
  funext k
  by_cases h1 : k = i
  · subst h1; simp [upd, h]
  · simp [upd, h1]

/-- any number of instructions of one context -/
inductive Mine (X : Extra P) (D : Reads A) (e : Env A) (i : Nat) : MCfg A → MCfg A → Prop
  | refl (M : MCfg A) : Mine X D e i M M
  | step {M M1 M2 : MCfg A} : MStep X D e M .tau M1 → Mine X D e i M1 M2 → Mine X D e i M M2

theorem Mine.reach {i : Nat} (h : Mine X D e i M M') (hr : MReach X D e M) : MReach X D e M' := by
  induction h with
  | refl => exact hr
  | step h1 _ ih => exact ih (.step hr h1)

theorem Mine.away {i j : Nat} {W : A.W → Prop} {M0 : MCfg A} (h : Mine X D e i M M') (ha : MAway X D e j W M0 M) : MAway X D e j W M0 M' := by
  induction h with
  | refl => exact ha
  | step h1 _ ih => exact ih (.step ha h1 (by simp) (by simp) (by simp))

theorem run_out {i t : Nat} {l : Act} {σ : St A} {p : List (Code A)} (n : Nat) : ∀ {M : MCfg A} {r : Regs A} {rest : List (Code A)}, size rest = n → rest ≠ [] →
    M.ctx i = some (.busy t l σ p r rest) → ∃ q r' m', Mine X D e i M { M with mem := m', ctx := upd M.ctx i (some (.busy t l σ p r' [.jmp [] q])) } ∧
      r'.on m' = (execs e rest (r.on M.mem)).1 := by
  induction n using Nat.strongRecOn with
  | _ n ih =>
    intro M r rest hn hne hi
    cases hm : mic e rest (r.on M.mem) with
    | none =>
      have hq : ∃ q, rest = [.jmp [] q] := by
        match rest, hne, hm with
        | [.jmp [] q], _, _ => exact ⟨q, rfl⟩
        | .brz [] _ _ _ :: _, _, hm => cases hm
        | .brz (_ :: _) _ _ _ :: _, _, hm => cases hm
      obtain ⟨q, rfl⟩ := hq
      exact ⟨q, r, M.mem, by rw [upd_eq _ hi]; exact .refl M, rfl⟩
    | some y =>
      obtain ⟨rest', s'⟩ := y
      obtain ⟨h1, h2⟩ := mic_size hm
      have hs := MStep.mic (X := X) (D := D) (M := M) i t l σ p r rest rest' s' hi hm
      obtain ⟨q, r', m', k1, k2⟩ := ih (size rest') (by omega) (M := { M with mem := s'.mem, ctx := upd M.ctx i (some (.busy t l σ p ⟨s'.gpr, s'.fpr⟩ rest')) }) rfl h2 (upd_same _ _ _)
      simp only [upd_upd] at k1
      refine ⟨q, r', m', .step hs k1, ?_⟩
      rw [k2, (mic_rest hm).2]
      rfl

/-! ## The history -/

/-- stack of context `k` -/
def blk (k : Nat) (a : A.W) : Prop := 0x10000 + 0x20000 * k ≤ a.toNat ∧ a.toNat < 0x20000 + 0x20000 * k

theorem blk_ne {k k' : Nat} {a : A.W} (h : k ≠ k') (h1 : blk k a) : ¬ blk k' a := by
  unfold blk at *; omega

/-- the calls of context `k`: stack pointer, result object, end of stack -/
def spOf (A : Arch) (k : Nat) : A.W := off A (0x18000 + 0x20000 * k)
def objOf (A : Arch) (k : Nat) : A.W := off A (0x19000 + 0x20000 * k)
def topOf (A : Arch) (k : Nat) : A.W := off A (0x1f000 + 0x20000 * k)

def St.regs (s : St A) : Regs A := ⟨s.gpr, s.fpr⟩

section
variable (C : Calls X)

include C in
theorem call_blk (m : Mem A) (k : Nat) (hk : k < 4) (h to x : A.W) (a : A.W) (ha : ¬ blk k a) : (C.call m (spOf A k) h to x).mem a = m a := by
  have hw : 2 ^ 32 ≤ 2 ^ (8 * A.k) := Nat.pow_le_pow_right (by omega) (by have := C.k; omega)
  refine C.mem _ _ _ _ _ _ fun hh => ha ?_
  have q := toNat_off (A := A) C.k (0x18000 + 0x20000 * k) (by omega)
  have := inR_toNat (A := A) (b := off A (0x18000 + 0x20000 * k)) hh (by omega)
  unfold blk; omega

/-- user code of context `k` prepares a call -/
theorem prepare (hJ : P.JumpSpec) (hO : X.OntopS f) (hM : X.MakeS) (F : Footprint X D) (L : Local X D) (hr : MReach X D e M) (hs : M.stk = blk) {k t : Nat} (hk : k < 4)
    {r : Regs A} (hi : M.ctx k = some (.user t r)) (h to x : A.W) : MStep X D e M .run
      { M with mem := (C.call M.mem (spOf A k) h to x).mem, ctx := upd M.ctx k (some (.user t (St.regs (C.call M.mem (spOf A k) h to x)))) } :=
  .run k t r _ _ hi fun j y a hj hu => call_blk C _ _ hk _ _ _ a (by have := used_apart hJ hO hM F L hr hi hj hu; rwa [hs] at this)

/-- the call of a switch is as the ABI demands -/
theorem call_ok (hs : M.stk = blk) (m : Mem A) {k : Nat} (hk : k < 4) (to x : A.W) : CallAt X M k (C.call m (spOf A k) (objOf A k) to x) := by
  have hw : 2 ^ 32 ≤ 2 ^ (8 * A.k) := Nat.pow_le_pow_right (by omega) (by have := C.k; omega)
  have hf := C.fctx m (spOf A k) (objOf A k) to x
  obtain ⟨z1, z2, -⟩ := C.sz
  have q := toNat_sub_off (A := A) C.k (0x18000 + 0x20000 * k) C.fr (by omega) (by omega)
  have q' := toNat_off (A := A) C.k (0x19000 + 0x20000 * k) (by omega)
  refine ⟨fun a ha => ?_, fun a ha => ?_, ?_⟩
  · rw [hf] at ha
    have := inR_toNat (A := A) (b := off A (0x18000 + 0x20000 * k) - off A C.fr) ha (by omega)
    rw [hs]; unfold blk; omega
  · have ha := C.slot _ _ _ _ _ _ ha
    have h1 := inR_toNat (A := A) (b := off A (0x19000 + 0x20000 * k)) ha (by omega)
    refine ⟨by rw [hs]; unfold blk; omega, fun h => ?_⟩
    rw [hf] at h
    have := inR_toNat (A := A) (b := off A (0x18000 + 0x20000 * k) - off A C.fr) h (by omega)
    omega
  · refine C.nn _ _ _ _ _ fun h => ?_
    have := congrArg BitVec.toNat h
    rw [show (objOf A k).toNat = _ from q', BitVec.toNat_ofNat, Nat.zero_mod] at this
    omega

/-- context 0 makes context `j` -/
theorem make_ok (hmok : ∀ e m j, j = 2 ∨ j = 3 → X.mok e (C.call m (spOf A 0) (topOf A j) (topOf A j) 0#_)) (hmd : ∀ e m t x a, D.mdesc e (C.call m (spOf A 0) t t x) a → blk 0 a)
    (hr : MReach X D e M) (hs : M.stk = blk) {j : Nat} (hj4 : j = 2 ∨ j = 3) {m : Mem A} (hm : M.mem = (C.call m (spOf A 0) (topOf A j) (topOf A j) 0#_).mem)
    (hi : M.ctx 0 = some (.user 0 (St.regs (C.call m (spOf A 0) (topOf A j) (topOf A j) 0#_)))) (hj : M.ctx j = none)
    (hu : ∀ k x a, M.ctx k = some x → used X D e x a → ¬ blk j a) :
    ∃ d r m', MReach X D e { M with mem := m', ctx := upd (upd M.ctx j (some (.fresh d))) 0 (some (.user 0 r)) } := by
  have hw : 2 ^ 32 ≤ 2 ^ (8 * A.k) := Nat.pow_le_pow_right (by omega) (by have := C.k; omega)
  obtain ⟨z1, z2, z3, z4⟩ := C.sz
  have hmo := hmok e m j hj4
  have hj4 : j < 4 := by omega
  have hj0 : (0 : Nat) ≠ j := fun hh => by rw [← hh, hi] at hj; cases hj
  obtain ⟨s, hs0⟩ : ∃ s, s = C.call m (spOf A 0) (topOf A j) (topOf A j) 0#_ := ⟨_, rfl⟩
  rw [← hs0] at hm hi
  have on : (St.regs s).on M.mem = s := by rw [hm]; rfl
  have top : P.argTop s = topOf A j := by rw [hs0]; exact C.argTop _ _ _ _
  have sp : s.gpr P.sp = spOf A 0 := by rw [hs0]; exact C.sp _ _ _ _ _
  have hd : ∀ a, InR a (P.resM (exec e P.make s).1) (P.argTop s - P.resM (exec e P.make s).1).toNat → blk j a := by
    have res : (P.argTop s - P.resM (exec e P.make s).1).toNat ≤ 0x800 := by rw [hs0]; exact C.res _ _ _ _ _
    generalize P.resM (exec e P.make s).1 = d at res ⊢
    intro a ha
    have h1 : P.argTop s = d + (P.argTop s - d) := by rw [BitVec.add_comm, BitVec.sub_add_cancel]
    have h2 : (P.argTop s).toNat = 0x1f000 + 0x20000 * j := by rw [top]; exact toNat_off C.k _ (by omega)
    have h3 := congrArg BitVec.toNat h1
    rw [BitVec.toNat_add, h2] at h3
    have h4 := d.isLt
    have h5 : d.toNat + (P.argTop s - d).toNat = 0x1f000 + 0x20000 * j := by
      by_cases hq : d.toNat + (P.argTop s - d).toNat < 2 ^ (8 * A.k)
      · rw [Nat.mod_eq_of_lt hq] at h3; omega
      · rw [Nat.mod_eq_sub_mod (by omega), Nat.mod_eq_of_lt (by omega)] at h3
        omega
    have := inR_toNat ha (by omega)
    unfold blk; omega
  have hst : upd M.stk j (blk j) = M.stk := by rw [hs]; exact upd_eq _ rfl
  have st := MStep.make (X := X) (D := D) (e := e) (M := M) 0 0 j (St.regs s) (blk j) [P.make] hi hj
    (fun k a hk h1 => by rw [hs] at h1; exact blk_ne (k := k) (fun hh => hk (by rw [hh]; exact hj)) h1)
    (fun a ha hn => by have := C.null a hn; unfold blk at ha; omega) hu (by
      rw [on, hst]
      refine .make (upd_same _ _ _) (by rw [hs]; exact hd) (fun a ha => ?_) (by rw [hs0]; exact hmo) (fun k a _ hk ha => ?_)
      · rw [sp] at ha
        show M.stk 0 a
        rw [hs]
        have q := toNat_sub_off (A := A) C.k 0x18000 P.mscratch (by omega) (by omega)
        have := inR_toNat (A := A) (b := off A 0x18000 - off A P.mscratch) ha (by omega)
        unfold blk; omega
      · show ¬ M.stk k a
        rw [hs]
        rw [hs0] at ha
        exact blk_ne (Ne.symm hk) (hmd _ _ _ _ _ ha))
  rw [hst, on] at st
  obtain ⟨q, r', m', k1, -⟩ := run_out (X := X) (D := D) (e := e) _ (M := { M with ctx := upd (upd M.ctx j (some .born)) 0 (some (.busy 0 (.make j) s [P.make] (St.regs s) [P.make])) })
    rfl (List.cons_ne_nil _ _) (upd_same _ _ _)
  have st2 := MStep.made (X := X) (D := D) (e := e) (M := { M with mem := m', ctx := upd (upd M.ctx j (some .born)) 0 (some (.busy 0 (.make j) s [P.make] r' [.jmp [] q])) })
    0 0 j s [P.make] r' q (by simp [upd])
  simp only [upd_upd] at k1
  refine ⟨P.resM (r'.on m'), r', m', ?_⟩
  have := MReach.step (k1.reach (.step hr st)) st2
  simp only at this
  have e1 : ∀ (v w x y : Option (MCtx A)), upd (upd (upd (upd M.ctx j v) 0 w) j x) 0 y = upd (upd M.ctx j x) 0 y := fun v w x y => by
    rw [upd_comm (upd M.ctx j v) w x hj0, upd_upd, upd_upd]
  rw [e1] at this
  exact this

end

/-- four contexts -/
def cf {β : Type _} (x0 x1 x2 x3 : Option β) : Nat → Option β
  | 0 => x0
  | 1 => x1
  | 2 => x2
  | 3 => x3
  | _ + 4 => none

section
variable {β : Type _} (x0 x1 x2 x3 v : Option β)
theorem cf0 : upd (cf x0 x1 x2 x3) 0 v = cf v x1 x2 x3 := by funext k; match k with | 0 => rfl | 1 => rfl | 2 => rfl | 3 => rfl | _ + 4 => rfl
theorem cf1 : upd (cf x0 x1 x2 x3) 1 v = cf x0 v x2 x3 := by funext k; match k with | 0 => rfl | 1 => rfl | 2 => rfl | 3 => rfl | _ + 4 => rfl
theorem cf2 : upd (cf x0 x1 x2 x3) 2 v = cf x0 x1 v x3 := by funext k; match k with | 0 => rfl | 1 => rfl | 2 => rfl | 3 => rfl | _ + 4 => rfl
theorem cf3 : upd (cf x0 x1 x2 x3) 3 v = cf x0 x1 x2 v := by funext k; match k with | 0 => rfl | 1 => rfl | 2 => rfl | 3 => rfl | _ + 4 => rfl
theorem cf_cases {Q : Nat → β → Prop} (h0 : ∀ y, x0 = some y → Q 0 y) (h1 : ∀ y, x1 = some y → Q 1 y) (h2 : ∀ y, x2 = some y → Q 2 y) (h3 : ∀ y, x3 = some y → Q 3 y) :
    ∀ k y, cf x0 x1 x2 x3 k = some y → Q k y := fun k y h => match k, h with
  | 0, h => h0 y h
  | 1, h => h1 y h
  | 2, h => h2 y h
  | 3, h => h3 y h
end

/-- the first instruction of a routine and what remains of it -/
def _root_.Verif.Asm.Code.first {A : Arch} : Code A → Option (Instr A × Code A)
  | .jmp (i :: is) r => some (i, .jmp is r)
  | .brz (i :: is) r z nz => some (i, .brz is r z nz)
  | _ => none

theorem mic_first {A : Arch} {e : Env A} {c c' : Code A} {i : Instr A} (h : c.first = some (i, c')) (cs : List (Code A)) (s : St A) :
    mic e (c :: cs) s = some (c' :: cs, step e s i) := by
  match c, h with
  | .jmp (i :: is) r, h => injection h with h; injection h with h1 h2; subst h1 h2; rfl
  | .brz (i :: is) r z nz, h => injection h with h; injection h with h1 h2; subst h1 h2; rfl

/-- Context 0 (on thread 0) makes contexts 2 and 3; thread 1 starts, its context 1 begins a switch to context 3 and executes an instruction of it; while
it is in the middle of this call, context 0 switches to context 2 and context 2 back to context 0, having changed the callee-saved registers. -/
theorem overlap (hJ : P.JumpSpec) (hO : X.OntopS f) (hM : X.MakeS) (F : Footprint X D) (L : Local X D) (C : Calls X)
    (hmok : ∀ e m j, j = 2 ∨ j = 3 → X.mok e (C.call m (spOf A 0) (topOf A j) (topOf A j) 0#_))
    (hmd : ∀ e m t x a, D.mdesc e (C.call m (spOf A 0) t t x) a → blk 0 a) (hj : P.jump.first ≠ none) (e : Env A) :
    ∃ M₀ M₁ M₂ M₃ σ τ, MReach X D e M₀ ∧ MStep X D e M₀ (.done 0 (.jump 2) σ) M₁ ∧ MAway X D e 0 (fun _ => True) M₁ M₂ ∧ MStep X D e M₂ (.done 2 (.jump 0) τ) M₃ ∧
      (∃ r ∈ P.saved, τ.gpr r ≠ σ.gpr r) ∧ ∃ σ₁ r₁ i c, M₀.ctx 1 = some (.busy 1 (.jump 3) σ₁ (P.jump :: P.stub) r₁ (c :: P.stub)) ∧
      M₃.ctx 1 = M₀.ctx 1 ∧ P.jump.first = some (i, c) := by
  have prep := @prepare A P X D e
  have nn : ∀ k (a : A.W), blk k a → ¬ X.null a := fun k a ha hn => by have := C.null a hn; unfold blk at ha; omega
  -- make 2
  obtain ⟨s, hs⟩ : ∃ s, s = C.call (fun _ => 0#_) (spOf A 0) (topOf A 2) (topOf A 2) 0#_ := ⟨_, rfl⟩
  have r0 : MReach X D e ⟨s.mem, blk, cf (some (.user 0 (St.regs s))) none none none⟩ := .init _ 0 0 (St.regs s) (by
    funext k; match k with | 0 => rfl | 1 => rfl | 2 => rfl | 3 => rfl | _ + 4 => rfl) (nn 0)
  obtain ⟨d2, r, m, r1⟩ := make_ok C hmok hmd r0 rfl (j := 2) (by decide) (m := fun _ => 0#_) (by rw [hs]) (by rw [hs]; rfl) rfl
    (fun k x a hk => cf_cases _ _ _ _ (Q := fun _ y => ∀ a, used X D e y a → ¬ blk 2 a) (fun y hy a hu => by cases hy; exact hu.elim) (fun y hy => by cases hy)
      (fun y hy => by cases hy) (fun y hy => by cases hy) k x hk a)
  simp only [cf2, cf0] at r1
  clear r0 hs s
  -- make 3
  have st := prep C hJ hO hM F L r1 rfl (k := 0) (t := 0) (by decide) rfl (topOf A 3) (topOf A 3) 0#_
  have r2 := MReach.step r1 st
  simp only [cf0] at r2
  have f2 : ∀ {m x0 x1 x3}, MReach X D e ⟨m, blk, cf x0 x1 (some (.fresh d2)) x3⟩ → ∀ a, InR a d2 P.mkeep → blk 2 a := fun h a ha => fresh_stk hJ hO hM F L h rfl ha
  have f2 := f2 r1
  obtain ⟨d3, r', m3, r3⟩ := make_ok C hmok hmd r2 rfl (j := 3) (by decide) (m := m) rfl rfl rfl
    (fun k x a hk => cf_cases _ _ _ _ (Q := fun _ y => ∀ a, used X D e y a → ¬ blk 3 a) (fun y hy a hu => by cases hy; exact hu.elim) (fun y hy => by cases hy)
      (fun y hy a hu => by cases hy; exact blk_ne (k := 2) (by decide) (f2 a hu)) (fun y hy => by cases hy) k x hk a)
  simp only [cf3, cf0] at r3
  have f3 : ∀ a, InR a d3 P.mkeep → blk 3 a := fun a ha => fresh_stk hJ hO hM F L r3 (j := 3) rfl ha
  clear st r1 r2
  -- thread 1
  have st := MStep.spawn (X := X) (D := D) (e := e) (M := ⟨m3, blk, cf (some (.user 0 r')) none (some (.fresh d2)) (some (.fresh d3))⟩) 1 1 (blk 1) r' rfl
    (fun k a hk h1 => blk_ne (k := k) (fun hh => hk (by rw [hh]; rfl)) h1) (nn 1)
    (fun k x a hk => cf_cases _ _ _ _ (Q := fun _ y => ∀ a, used X D e y a → ¬ blk 1 a) (fun y hy a hu => by cases hy; exact hu.elim) (fun y hy => by cases hy)
      (fun y hy a hu => by cases hy; exact blk_ne (k := 2) (by decide) (f2 a hu)) (fun y hy a hu => by cases hy; exact blk_ne (k := 3) (by decide) (f3 a hu)) k x hk a)
    (fun k r hk => by
      refine cf_cases _ _ _ _ (Q := fun _ y => ∀ r, y ≠ .user 1 r) (fun y hy r => ?_) (fun y hy r => ?_) (fun y hy r => ?_) (fun y hy r => ?_) k _ hk r rfl <;> cases hy <;> simp)
    (fun k l σ p r rs hk => by
      refine cf_cases _ _ _ _ (Q := fun _ y => ∀ l σ p r rs, y ≠ .busy 1 l σ p r rs) (fun y hy _ _ _ _ _ => ?_) (fun y hy _ _ _ _ _ => ?_) (fun y hy _ _ _ _ _ => ?_) (fun y hy _ _ _ _ _ => ?_)
        k _ hk l σ p r rs rfl <;> cases hy <;> simp)
  have r4 := MReach.step r3 st
  have hst : upd blk 1 (blk (A := A) 1) = blk := upd_eq _ rfl
  simp only [cf1, hst] at r4
  clear st r3
  -- context 1 begins its call
  have st := prep C hJ hO hM F L r4 rfl (k := 1) (t := 1) (by decide) rfl (objOf A 1) d3 1#_
  obtain ⟨σ1, hσ1⟩ : ∃ s, s = C.call m3 (spOf A 1) (objOf A 1) d3 1#_ := ⟨_, rfl⟩
  have r5 := MReach.step r4 st
  simp only [cf1, ← hσ1] at r5
  clear st r4
  have ca : CallAt X ⟨σ1.mem, blk, cf (some (.user 0 r')) (some (.user 1 (St.regs σ1))) (some (.fresh d2)) (some (.fresh d3))⟩ 1 σ1 := by rw [hσ1]; exact call_ok C rfl _ (by decide) _ _
  have st := MStep.call (X := X) (D := D) (e := e) (M := ⟨σ1.mem, blk, cf (some (.user 0 r')) (some (.user 1 (St.regs σ1))) (some (.fresh d2)) (some (.fresh d3))⟩) 1 1 3 (.jump 3)
    (St.regs σ1) (P.jump :: P.stub) rfl (.inl rfl)
    (fun ⟨i, t, l, σ, p, r, rs, h1, _⟩ => by
      refine cf_cases _ _ _ _ (Q := fun _ y => ∀ t l σ p r rs, y ≠ .busy t l σ p r rs) (fun y hy _ _ _ _ _ _ => ?_) (fun y hy _ _ _ _ _ _ => ?_) (fun y hy _ _ _ _ _ _ => ?_)
        (fun y hy _ _ _ _ _ _ => ?_) i _ h1 t l σ p r rs rfl <;> cases hy <;> simp)
    (.start rfl (by rw [hσ1]; exact C.argF _ _ _ _ _) ca)
  have r6 := MReach.step r5 st
  simp only [cf1] at r6
  clear st r5
  have on : (St.regs σ1).on σ1.mem = σ1 := rfl
  rw [on] at r6
  obtain ⟨⟨i, cc⟩, hj⟩ := Option.ne_none_iff_exists'.1 hj
  obtain ⟨p, hp⟩ : ∃ p, p = P.jump :: P.stub := ⟨_, rfl⟩
  rw [← hp] at r6
  have st := MStep.mic (X := X) (D := D) (e := e) (M := ⟨σ1.mem, blk, cf (some (.user 0 r')) (some (.busy 1 (.jump 3) σ1 p (St.regs σ1) p)) (some (.fresh d2)) (some (.fresh d3))⟩) 1 1 (.jump 3)
    σ1 p (St.regs σ1) p (cc :: P.stub) (step e σ1 i) rfl (by rw [hp]; exact mic_first hj _ _)
  have r7 := MReach.step r6 st
  simp only [cf1] at r7
  obtain ⟨y1, hy1⟩ : ∃ y, y = MCtx.busy 1 (.jump 3) σ1 p (St.regs (step e σ1 i)) (cc :: P.stub) := ⟨_, rfl⟩
  have r7 : MReach X D e ⟨(step e σ1 i).mem, blk, cf (some (.user 0 r')) (some y1) (some (.fresh d2)) (some (.fresh d3))⟩ := by rw [hy1]; exact r7
  clear st r6 on ca
  generalize (step e σ1 i).mem = m5 at r7
  have ycl : ∀ {k t l σ p r rs}, y1 = .busy t l σ p r rs → tgt l = some k → k = 3 := fun h1 h2 => by
    rw [hy1] at h1; injection h1 with _ h1; rw [← h1] at h2; injection h2 with h2; exact h2.symm
  -- context 0 switches to context 2
  have st := prep C hJ hO hM F L r7 rfl (k := 0) (t := 0) (by decide) rfl (objOf A 0) d2 1#_
  obtain ⟨σ, hσ⟩ : ∃ s, s = C.call m5 (spOf A 0) (objOf A 0) d2 1#_ := ⟨_, rfl⟩
  have r8 := MReach.step r7 st
  simp only [cf0, ← hσ] at r8
  clear st r7
  have st := MStep.call (X := X) (D := D) (e := e) (M := ⟨σ.mem, blk, cf (some (.user 0 (St.regs σ))) (some y1) (some (.fresh d2)) (some (.fresh d3))⟩) 0 0 2 (.jump 2)
    (St.regs σ) p rfl (.inl rfl)
    (fun ⟨i, t, l, σ, p, r, rs, h1, h2⟩ => by
      refine cf_cases _ _ _ _ (Q := fun _ y => ∀ t l σ p r rs, tgt l = some 2 → y ≠ .busy t l σ p r rs) (fun y hy _ _ _ _ _ _ _ => ?_) (fun y hy _ _ _ _ _ _ h2 h3 => ?_) (fun y hy _ _ _ _ _ _ _ => ?_)
        (fun y hy _ _ _ _ _ _ _ => ?_) i _ h1 t l σ p r rs h2 rfl
      · cases hy; simp
      · injection hy with hy; rw [← hy] at h3; exact absurd (ycl h3 h2) (by decide)
      · cases hy; simp
      · cases hy; simp)
    (by rw [hp]; exact .start rfl (by rw [hσ]; exact C.argF _ _ _ _ _) (by
          show CallAt X _ 0 σ
          rw [hσ]; exact call_ok C rfl _ (by decide) _ _))
  have r9 := MReach.step r8 st
  simp only [cf0] at r9
  clear st r8
  obtain ⟨q', ra, ma, w1, -⟩ := run_out (X := X) (D := D) (e := e) _ (i := 0) (M := ⟨σ.mem, blk, cf (some (.busy 0 (.jump 2) σ p (St.regs σ) p)) (some y1) (some (.fresh d2)) (some (.fresh d3))⟩)
    rfl (by rw [hp]; simp) rfl
  simp only [cf0] at w1
  have r10 := w1.reach r9
  clear w1 r9
  have sw := MStep.switch (X := X) (D := D) (e := e) (M := ⟨ma, blk, cf (some (.busy 0 (.jump 2) σ p ra [.jmp [] q'])) (some y1) (some (.fresh d2)) (some (.fresh d3))⟩) 0 0 2 (.jump 2) σ p ra q' rfl (.inl rfl)
  have r11 := MReach.step r10 sw
  simp only [cf0, cf2] at sw r11
  -- context 2 switches back
  have st := prep C hJ hO hM F L r11 rfl (k := 2) (t := 0) (by decide) rfl (objOf A 2) (P.fctx σ) 2#_
  obtain ⟨τ, hτ⟩ : ∃ s, s = C.call ma (spOf A 2) (objOf A 2) (P.fctx σ) 2#_ := ⟨_, rfl⟩
  have a1 := MAway.step (i := 0) (W := fun _ => True) (MAway.refl _) st (by simp) (by simp) (fun _ _ _ => trivial)
  simp only [cf2, ← hτ] at a1
  clear st
  have st := MStep.call (X := X) (D := D) (e := e) (M := ⟨τ.mem, blk, cf (some (.susp (P.fctx σ))) (some y1) (some (.user 0 (St.regs τ))) (some (.fresh d3))⟩) 2 0 0 (.jump 0)
    (St.regs τ) [P.jump] rfl (.inl rfl)
    (fun ⟨i, t, l, σ, p, r, rs, h1, h2⟩ => by
      refine cf_cases _ _ _ _ (Q := fun _ y => ∀ t l σ p r rs, tgt l = some 0 → y ≠ .busy t l σ p r rs) (fun y hy _ _ _ _ _ _ _ => ?_) (fun y hy _ _ _ _ _ _ h2 h3 => ?_) (fun y hy _ _ _ _ _ _ _ => ?_)
        (fun y hy _ _ _ _ _ _ _ => ?_) i _ h1 t l σ p r rs h2 rfl
      · cases hy; simp
      · injection hy with hy; rw [← hy] at h3; exact absurd (ycl h3 h2) (by decide)
      · cases hy; simp
      · cases hy; simp)
    (.resume rfl (by rw [hτ]; exact C.argF _ _ _ _ _) (by
          show CallAt X _ 2 τ
          rw [hτ]; exact call_ok C rfl _ (by decide) _ _))
  have a2 := MAway.step (i := 0) (W := fun _ => True) a1 st (by simp) (by simp) (fun _ _ _ => trivial)
  simp only [cf2] at a2
  clear st a1
  obtain ⟨q2, rb, mb, w2, -⟩ := run_out (X := X) (D := D) (e := e) _ (i := 2) (M := ⟨τ.mem, blk, cf (some (.susp (P.fctx σ))) (some y1) (some (.busy 0 (.jump 0) τ [P.jump] (St.regs τ) [P.jump])) (some (.fresh d3))⟩)
    rfl (by simp) rfl
  simp only [cf2] at w2
  have a3 := w2.away a2
  have sw2 := MStep.switch (X := X) (D := D) (e := e) (M := ⟨mb, blk, cf (some (.susp (P.fctx σ))) (some y1) (some (.busy 0 (.jump 0) τ [P.jump] rb [.jmp [] q2])) (some (.fresh d3))⟩) 2 0 0 (.jump 0) τ [P.jump] rb q2 rfl
    (.inl rfl)
  refine ⟨_, _, _, _, σ, τ, r10, sw, a3, sw2, ?_, σ1, St.regs (step e σ1 i), i, cc, ?_, rfl, hj⟩
  · obtain ⟨w, hw, hx⟩ := C.diff
    refine ⟨w, hw, ?_⟩
    rw [hσ, hτ, hx, hx]
    intro hh
    have hw : 2 ^ 32 ≤ 2 ^ (8 * A.k) := Nat.pow_le_pow_right (by omega) (by have := C.k; omega)
    have := congrArg BitVec.toNat hh
    rw [BitVec.toNat_ofNat, BitVec.toNat_ofNat, Nat.mod_eq_of_lt (by omega), Nat.mod_eq_of_lt (by omega)] at this
    omega
  · show some y1 = _
    rw [hy1, ← hp]

end Micro
end Verif.Asm
