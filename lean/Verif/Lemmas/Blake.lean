import Verif.Model.Blake
import Verif.Spec.Blake
import Mathlib.Data.Nat.Bitwise
import Mathlib.Tactic.Ring

/-! Lemmas about the model of `blake256`: the rounds, one block. -/

namespace Verif.Blake
open Verif

/-- First half of the function `G` number `i` of round `r` on the places `a b c d`. -/
def stepA (r i a b c d : Nat) : Step :=
  ⟨a, b, c, d, (Spec.Blake.sigma.getD (r % 10) []).getD (2 * i) 0, (Spec.Blake.sigma.getD (r % 10) []).getD (2 * i + 1) 0, 16, 12⟩

/-- Second half of the function `G`. -/
def stepB (r i a b c d : Nat) : Step :=
  ⟨a, b, c, d, (Spec.Blake.sigma.getD (r % 10) []).getD (2 * i + 1) 0, (Spec.Blake.sigma.getD (r % 10) []).getD (2 * i) 0, 8, 7⟩

/-- The steps of a round in the order of the file. -/
def fileSteps (r : Nat) : List Step :=
  [stepA r 0 0 4 8 12, stepA r 1 1 5 9 13, stepA r 2 2 6 10 14, stepA r 3 3 7 11 15,
    stepB r 2 2 6 10 14, stepB r 3 3 7 11 15, stepB r 1 1 5 9 13, stepB r 0 0 4 8 12] ++
  [stepA r 4 0 5 10 15, stepA r 5 1 6 11 12, stepA r 6 2 7 8 13, stepA r 7 3 4 9 14,
    stepB r 6 2 7 8 13, stepB r 7 3 4 9 14, stepB r 5 1 6 11 12, stepB r 4 0 5 10 15]

/-- The steps of a round in the order of the specification. -/
def specSteps (r : Nat) : List Step :=
  [stepA r 0 0 4 8 12, stepB r 0 0 4 8 12, stepA r 1 1 5 9 13, stepB r 1 1 5 9 13,
    stepA r 2 2 6 10 14, stepB r 2 2 6 10 14, stepA r 3 3 7 11 15, stepB r 3 3 7 11 15] ++
  [stepA r 4 0 5 10 15, stepB r 4 0 5 10 15, stepA r 5 1 6 11 12, stepB r 5 1 6 11 12,
    stepA r 6 2 7 8 13, stepB r 6 2 7 8 13, stepA r 7 3 4 9 14, stepB r 7 3 4 9 14]

theorem rounds_eq : rounds = (List.range 14).flatMap fileSteps := by decide +kernel

/-- The places of a step. -/
def Step.idx (e : Step) : List Nat := [e.a, e.b, e.c, e.d]

/-- The values a step writes, from the values it reads. -/
def Step.vals (m : Nat → UInt32) (e : Step) (a b c d : UInt32) : UInt32 × UInt32 × UInt32 × UInt32 :=
  let a := a + (m e.i ^^^ cst.getD e.j 0) + b
  let d := (d ^^^ a) <<< (32 - e.r) ||| (d ^^^ a) >>> e.r
  let c := c + d
  let b := (b ^^^ c) <<< (32 - e.q) ||| (b ^^^ c) >>> e.q
  (a, b, c, d)

theorem getD_set_self {v : List UInt32} {i : Nat} (h : i < v.length) (x : UInt32) : (v.set i x).getD i 0 = x := by
  simp [List.getD, h]

theorem getD_set_ne {v : List UInt32} {i j : Nat} (h : i ≠ j) (x : UInt32) : (v.set i x).getD j 0 = v.getD j 0 := by
  simp [List.getD, h]

theorem run_length (m : Nat → UInt32) (v : List UInt32) (e : Step) : (e.run m v).length = v.length := by
  simp [Step.run]

set_option linter.unusedSimpArgs false in
theorem run_eq (m : Nat → UInt32) (v : List UInt32) (e : Step) (hn : e.idx.Nodup) (hl : ∀ i ∈ e.idx, i < v.length) :
    e.run m v = let (a, b, c, d) := e.vals m (v.getD e.a 0) (v.getD e.b 0) (v.getD e.c 0) (v.getD e.d 0)
      (((v.set e.a a).set e.b b).set e.c c).set e.d d := by
  obtain ⟨a, b, c, d, i, j, r, q⟩ := e
  simp only [Step.idx, List.nodup_cons, List.mem_cons, List.not_mem_nil, or_false, not_or, List.nodup_nil, and_true, not_false_eq_true] at hn
  obtain ⟨⟨ab, ac, ad⟩, ⟨bc, bd⟩, cd⟩ := hn
  have ha : a < v.length := hl a (by simp [Step.idx])
  have hb : b < v.length := hl b (by simp [Step.idx])
  have hc : c < v.length := hl c (by simp [Step.idx])
  have hd : d < v.length := hl d (by simp [Step.idx])
  apply List.ext_getElem?
  intro k
  simp only [Step.run, Step.vals]
  simp only [List.set_set, getD_set_self, getD_set_ne, List.length_set, ha, hb, hc, hd, ab, ac, ad, bc, bd, cd, Ne.symm ab, Ne.symm ac, Ne.symm ad,
    Ne.symm bc, Ne.symm bd, Ne.symm cd, ne_eq, not_false_eq_true, List.getElem?_set]
  by_cases k1 : a = k <;> by_cases k2 : b = k <;> by_cases k3 : c = k <;> by_cases k4 : d = k <;> simp_all

/-- A step that reads and writes four different places of the state. -/
def Step.Ok (n : Nat) (e : Step) : Prop := e.idx.Nodup ∧ ∀ i ∈ e.idx, i < n

instance (n : Nat) (e : Step) : Decidable (e.Ok n) := inferInstanceAs (Decidable (_ ∧ _))

theorem run_other {m : Nat → UInt32} {v : List UInt32} {e : Step} (h : e.Ok v.length) {k : Nat} (hk : k ∉ e.idx) : (e.run m v)[k]? = v[k]? := by
  rw [run_eq m v e h.1 h.2]
  simp only [Step.idx, List.mem_cons, List.not_mem_nil, or_false, not_or] at hk
  obtain ⟨h1, h2, h3, h4⟩ := hk
  simp only [List.getElem?_set, Ne.symm h1, Ne.symm h2, Ne.symm h3, Ne.symm h4, if_false]

theorem run_same {m : Nat → UInt32} {v w : List UInt32} {e : Step} (hl : v.length = w.length) (h : e.Ok v.length)
    (hs : ∀ i ∈ e.idx, v[i]? = w[i]?) {k : Nat} (hk : k ∈ e.idx) : (e.run m v)[k]? = (e.run m w)[k]? := by
  rw [run_eq m v e h.1 h.2, run_eq m w e h.1 (hl ▸ h.2)]
  have ga : v.getD e.a 0 = w.getD e.a 0 := by simp only [List.getD, hs e.a (by simp [Step.idx])]
  have gb : v.getD e.b 0 = w.getD e.b 0 := by simp only [List.getD, hs e.b (by simp [Step.idx])]
  have gc : v.getD e.c 0 = w.getD e.c 0 := by simp only [List.getD, hs e.c (by simp [Step.idx])]
  have gd : v.getD e.d 0 = w.getD e.d 0 := by simp only [List.getD, hs e.d (by simp [Step.idx])]
  rw [ga, gb, gc, gd]
  simp only [List.getElem?_set, List.length_set, hl, hs k hk]

theorem run_comm {m : Nat → UInt32} {v : List UInt32} {e f : Step} (he : e.Ok v.length) (hf : f.Ok v.length) (hd : ∀ i ∈ e.idx, i ∉ f.idx) :
    f.run m (e.run m v) = e.run m (f.run m v) := by
  have he' : e.Ok (f.run m v).length := by rw [run_length]; exact he
  have hf' : f.Ok (e.run m v).length := by rw [run_length]; exact hf
  apply List.ext_getElem?
  intro k
  by_cases h1 : k ∈ e.idx
  · rw [run_other hf' (hd k h1)]
    exact run_same (run_length ..).symm he (fun i hi => (run_other hf (hd i hi)).symm) h1
  · rw [run_other he' h1]
    by_cases h2 : k ∈ f.idx
    · refine run_same (run_length ..) hf' (fun i hi => run_other he fun h => hd i h hi) h2
    · rw [run_other hf' h2, run_other he h1, run_other hf h2]

/-- Four pairs of steps on disjoint places, in the two orders. -/
theorem reorder {m : Nat → UInt32} {v : List UInt32} {a0 b0 a1 b1 a2 b2 a3 b3 : Step} (ha0 : a0.Ok v.length) (ha1 : a1.Ok v.length)
    (ha2 : a2.Ok v.length) (ha3 : a3.Ok v.length) (hb0 : b0.idx = a0.idx) (hb1 : b1.idx = a1.idx) (hb2 : b2.idx = a2.idx)
    (hb3 : b3.idx = a3.idx) (d01 : ∀ i ∈ a0.idx, i ∉ a1.idx) (d02 : ∀ i ∈ a0.idx, i ∉ a2.idx) (d03 : ∀ i ∈ a0.idx, i ∉ a3.idx)
    (d12 : ∀ i ∈ a1.idx, i ∉ a2.idx) (d13 : ∀ i ∈ a1.idx, i ∉ a3.idx) (d23 : ∀ i ∈ a2.idx, i ∉ a3.idx) :
    [a0, a1, a2, a3, b2, b3, b1, b0].foldl (Step.run m) v = [a0, b0, a1, b1, a2, b2, a3, b3].foldl (Step.run m) v := by
  have kb0 : b0.Ok v.length := by unfold Step.Ok; rw [hb0]; exact ha0
  have kb1 : b1.Ok v.length := by unfold Step.Ok; rw [hb1]; exact ha1
  have kb2 : b2.Ok v.length := by unfold Step.Ok; rw [hb2]; exact ha2
  have kb3 : b3.Ok v.length := by unfold Step.Ok; rw [hb3]; exact ha3
  simp only [List.foldl_cons, List.foldl_nil]
  have L : ∀ (e : Step) (w : List UInt32), w.length = v.length → (e.run m w).length = v.length := fun e w h => by rw [run_length, h]
  have C : ∀ (e f : Step) (w : List UInt32), w.length = v.length → e.Ok v.length → f.Ok v.length → (∀ i ∈ e.idx, i ∉ f.idx) →
      f.run m (e.run m w) = e.run m (f.run m w) := fun e f w h h1 h2 hd => run_comm (by rw [h]; exact h1) (by rw [h]; exact h2) hd
  have l1 := L a0 v rfl
  have l2 := L a1 _ l1
  have l3 := L a2 _ l2
  have l4 := L a3 _ l3
  have l5 := L b2 _ l4
  have l6 := L b3 _ l5
  -- move `b0` to the front
  rw [C b1 b0 _ l6 kb1 kb0 (by rw [hb1, hb0]; exact fun i h h' => d01 i h' h), C b3 b0 _ l5 kb3 kb0 (by rw [hb3, hb0]; exact fun i h h' => d03 i h' h),
    C b2 b0 _ l4 kb2 kb0 (by rw [hb2, hb0]; exact fun i h h' => d02 i h' h), C a3 b0 _ l3 ha3 kb0 (by rw [hb0]; exact fun i h h' => d03 i h' h),
    C a2 b0 _ l2 ha2 kb0 (by rw [hb0]; exact fun i h h' => d02 i h' h), C a1 b0 _ l1 ha1 kb0 (by rw [hb0]; exact fun i h h' => d01 i h' h)]
  have m1 := L b0 _ l1
  have m2 := L a1 _ m1
  have m3 := L a2 _ m2
  have m4 := L a3 _ m3
  have m5 := L b2 _ m4
  -- move `b1` to its place
  rw [C b3 b1 _ m5 kb3 kb1 (by rw [hb3, hb1]; exact fun i h h' => d13 i h' h), C b2 b1 _ m4 kb2 kb1 (by rw [hb2, hb1]; exact fun i h h' => d12 i h' h),
    C a3 b1 _ m3 ha3 kb1 (by rw [hb1]; exact fun i h h' => d13 i h' h), C a2 b1 _ m2 ha2 kb1 (by rw [hb1]; exact fun i h h' => d12 i h' h)]
  have n1 := L b1 _ m2
  have n2 := L a2 _ n1
  -- move `b2` to its place
  rw [C a3 b2 _ n2 ha3 kb2 (by rw [hb2]; exact fun i h h' => d23 i h' h)]

theorem fold_length (m : Nat → UInt32) : ∀ (l : List Step) (w : List UInt32), (l.foldl (Step.run m) w).length = w.length
  | [], _ => rfl
  | e :: l, w => by rw [List.foldl_cons, fold_length m l, run_length]

/-- The two orders of a round give the same state. -/
theorem round_reorder (m : Nat → UInt32) (v : List UInt32) (hv : v.length = 16) (r : Nat) :
    (fileSteps r).foldl (Step.run m) v = (specSteps r).foldl (Step.run m) v := by
  unfold fileSteps specSteps
  rw [List.foldl_append, List.foldl_append]
  have k : [stepA r 0 0 4 8 12, stepA r 1 1 5 9 13, stepA r 2 2 6 10 14, stepA r 3 3 7 11 15,
      stepB r 2 2 6 10 14, stepB r 3 3 7 11 15, stepB r 1 1 5 9 13, stepB r 0 0 4 8 12].foldl (Step.run m) v =
    [stepA r 0 0 4 8 12, stepB r 0 0 4 8 12, stepA r 1 1 5 9 13, stepB r 1 1 5 9 13,
      stepA r 2 2 6 10 14, stepB r 2 2 6 10 14, stepA r 3 3 7 11 15, stepB r 3 3 7 11 15].foldl (Step.run m) v := by
    refine reorder ?_ ?_ ?_ ?_ rfl rfl rfl rfl ?_ ?_ ?_ ?_ ?_ ?_ <;> simp [Step.Ok, Step.idx, hv, stepA]
  rw [k]
  generalize hw : List.foldl (Step.run m) v _ = w
  have lw : w.length = 16 := by rw [← hw, fold_length, hv]
  refine reorder ?_ ?_ ?_ ?_ rfl rfl rfl rfl ?_ ?_ ?_ ?_ ?_ ?_ <;> simp [Step.Ok, Step.idx, lw, stepA]

/-! ### Rotations and words -/

theorem rot16 (x : UInt32) : x <<< (32 - 16) ||| x >>> 16 = Spec.Blake.rotr x 16 := by
  apply UInt32.eq_of_toBitVec_eq
  simp [Spec.Blake.rotr, BitVec.rotateRight_def, BitVec.or_comm]

theorem rot12 (x : UInt32) : x <<< (32 - 12) ||| x >>> 12 = Spec.Blake.rotr x 12 := by
  apply UInt32.eq_of_toBitVec_eq
  simp [Spec.Blake.rotr, BitVec.rotateRight_def, BitVec.or_comm]

theorem rot8 (x : UInt32) : x <<< (32 - 8) ||| x >>> 8 = Spec.Blake.rotr x 8 := by
  apply UInt32.eq_of_toBitVec_eq
  simp [Spec.Blake.rotr, BitVec.rotateRight_def, BitVec.or_comm]

theorem rot7 (x : UInt32) : x <<< (32 - 7) ||| x >>> 7 = Spec.Blake.rotr x 7 := by
  apply UInt32.eq_of_toBitVec_eq
  simp [Spec.Blake.rotr, BitVec.rotateRight_def, BitVec.or_comm]

theorem word_eq (p : Bytes) (h : 4 ≤ p.length) : word p = UInt32.ofNat (beNat (p.take 4)) := by
  match p, h with
  | a :: b :: c :: d :: p, _ =>
    apply UInt32.toNat_inj.mp
    simp [word, beNat, leNat]
    have ha := a.toNat_lt
    have hb := b.toNat_lt
    have hc := c.toNat_lt
    have hd := d.toNat_lt
    generalize a.toNat = a at *
    generalize b.toNat = b at *
    generalize c.toNat = c at *
    generalize d.toNat = d at *
    rw [Nat.mod_eq_of_lt (a := a <<< 24) (by rw [Nat.shiftLeft_eq]; omega), Nat.mod_eq_of_lt (a := b <<< 16) (by rw [Nat.shiftLeft_eq]; omega),
      Nat.mod_eq_of_lt (a := c <<< 8) (by rw [Nat.shiftLeft_eq]; omega)]
    rw [Nat.or_assoc, Nat.or_assoc, ← Nat.shiftLeft_add_eq_or_of_lt (b := d) (i := 8) (by omega),
      ← Nat.shiftLeft_add_eq_or_of_lt (i := 16) (by rw [Nat.shiftLeft_eq]; omega),
      ← Nat.shiftLeft_add_eq_or_of_lt (i := 24) (by rw [Nat.shiftLeft_eq, Nat.shiftLeft_eq]; omega)]
    simp only [Nat.shiftLeft_eq]
    omega

theorem set4_set4 (v : List UInt32) (a b c d : Nat) (x y z w x' y' z' w' : UInt32) :
    ((((((((v.set a x).set b y).set c z).set d w).set a x').set b y').set c z').set d w') = (((v.set a x').set b y').set c z').set d w' := by
  apply List.ext_getElem?
  intro k
  simp only [List.getElem?_set, List.length_set]
  by_cases k1 : a = k <;> by_cases k2 : b = k <;> by_cases k3 : c = k <;> by_cases k4 : d = k <;> simp_all

theorem g_eq (m : Nat → UInt32) (r i pa pb pc pd : Nat) (a b c d : UInt32) : Spec.Blake.g m r i a b c d =
    let (a, b, c, d) := (stepA r i pa pb pc pd).vals m a b c d
    (stepB r i pa pb pc pd).vals m a b c d := by
  have ac : ∀ x y z : UInt32, x + y + z = x + z + y := fun x y z => by rw [UInt32.add_assoc, UInt32.add_comm y, ← UInt32.add_assoc]
  simp only [Spec.Blake.g, Step.vals, stepA, stepB, rot16, rot12, rot8, rot7, show Spec.Blake.pi = cst from rfl]
  rw [ac a b]
  generalize a + _ + b = a
  generalize hd : Spec.Blake.rotr (d ^^^ a) 16 = d1
  generalize c + d1 = c1
  generalize Spec.Blake.rotr (b ^^^ c1) 12 = b1
  rw [ac a b1]

theorem gAt_eq (m : Nat → UInt32) (r i a b c d : Nat) (v : List UInt32) (hn : [a, b, c, d].Nodup) (hl : ∀ i ∈ [a, b, c, d], i < v.length) :
    Spec.Blake.gAt m r i a b c d v = (stepB r i a b c d).run m ((stepA r i a b c d).run m v) := by
  rw [run_eq m _ (stepB r i a b c d) hn (by rw [run_length]; exact hl), run_eq m v (stepA r i a b c d) hn hl]
  simp only [List.nodup_cons, List.mem_cons, List.not_mem_nil, or_false, not_or, List.nodup_nil, and_true, not_false_eq_true] at hn
  obtain ⟨⟨ab, ac, ad⟩, ⟨bc, bd⟩, cd⟩ := hn
  have ha : a < v.length := hl a (by simp)
  have hb : b < v.length := hl b (by simp)
  have hc : c < v.length := hl c (by simp)
  have hd : d < v.length := hl d (by simp)
  unfold Spec.Blake.gAt
  rw [g_eq m r i a b c d]
  have pA : (stepA r i a b c d).a = a ∧ (stepA r i a b c d).b = b ∧ (stepA r i a b c d).c = c ∧ (stepA r i a b c d).d = d := ⟨rfl, rfl, rfl, rfl⟩
  have pB : (stepB r i a b c d).a = a ∧ (stepB r i a b c d).b = b ∧ (stepB r i a b c d).c = c ∧ (stepB r i a b c d).d = d := ⟨rfl, rfl, rfl, rfl⟩
  rw [pA.1, pA.2.1, pA.2.2.1, pA.2.2.2, pB.1, pB.2.1, pB.2.2.1, pB.2.2.2]
  generalize (stepA r i a b c d).vals m (v.getD a 0) (v.getD b 0) (v.getD c 0) (v.getD d 0) = q
  obtain ⟨x, y, z, w⟩ := q
  simp only
  have ga : ((((v.set a x).set b y).set c z).set d w).getD a 0 = x := by
    rw [getD_set_ne (Ne.symm ad), getD_set_ne (Ne.symm ac), getD_set_ne (Ne.symm ab), getD_set_self ha]
  have gb : ((((v.set a x).set b y).set c z).set d w).getD b 0 = y := by
    rw [getD_set_ne (Ne.symm bd), getD_set_ne (Ne.symm bc), getD_set_self (by simpa using hb)]
  have gc : ((((v.set a x).set b y).set c z).set d w).getD c 0 = z := by
    rw [getD_set_ne (Ne.symm cd), getD_set_self (by simpa using hc)]
  have gd : ((((v.set a x).set b y).set c z).set d w).getD d 0 = w := by
    rw [getD_set_self (by simpa using hd)]
  rw [ga, gb, gc, gd, set4_set4]

theorem round_eq (m : Nat → UInt32) (v : List UInt32) (hv : v.length = 16) (r : Nat) :
    (fileSteps r).foldl (Step.run m) v = Spec.Blake.round m v r := by
  rw [round_reorder m v hv]
  unfold Spec.Blake.round specSteps
  simp only [List.cons_append, List.nil_append, List.foldl_cons, List.foldl_nil]
  have E : ∀ (i a b c d : Nat) (w : List UInt32), w.length = 16 → [a, b, c, d].Nodup → (∀ i ∈ [a, b, c, d], i < 16) →
      (stepB r i a b c d).run m ((stepA r i a b c d).run m w) = Spec.Blake.gAt m r i a b c d w ∧
        (Spec.Blake.gAt m r i a b c d w).length = 16 := by
    intro i a b c d w h h1 h2
    exact ⟨(gAt_eq m r i a b c d w h1 (by rw [h]; exact h2)).symm, by simp [Spec.Blake.gAt, h]⟩
  obtain ⟨e, l⟩ := E 0 0 4 8 12 v hv (by decide) (by decide)
  rw [e]; clear e
  generalize Spec.Blake.gAt m r 0 0 4 8 12 v = w at *
  obtain ⟨e, l⟩ := E 1 1 5 9 13 _ l (by decide) (by decide)
  rw [e]; clear e
  generalize Spec.Blake.gAt m r 1 1 5 9 13 w = w at *
  obtain ⟨e, l⟩ := E 2 2 6 10 14 _ l (by decide) (by decide)
  rw [e]; clear e
  generalize Spec.Blake.gAt m r 2 2 6 10 14 w = w at *
  obtain ⟨e, l⟩ := E 3 3 7 11 15 _ l (by decide) (by decide)
  rw [e]; clear e
  generalize Spec.Blake.gAt m r 3 3 7 11 15 w = w at *
  obtain ⟨e, l⟩ := E 4 0 5 10 15 _ l (by decide) (by decide)
  rw [e]; clear e
  generalize Spec.Blake.gAt m r 4 0 5 10 15 w = w at *
  obtain ⟨e, l⟩ := E 5 1 6 11 12 _ l (by decide) (by decide)
  rw [e]; clear e
  generalize Spec.Blake.gAt m r 5 1 6 11 12 w = w at *
  obtain ⟨e, l⟩ := E 6 2 7 8 13 _ l (by decide) (by decide)
  rw [e]; clear e
  generalize Spec.Blake.gAt m r 6 2 7 8 13 w = w at *
  exact (E 7 3 4 9 14 _ l (by decide) (by decide)).1

theorem rounds_spec (m : Nat → UInt32) (v : List UInt32) (hv : v.length = 16) :
    rounds.foldl (Step.run m) v = (List.range 14).foldl (Spec.Blake.round m) v := by
  rw [rounds_eq]
  generalize List.range 14 = l
  induction l generalizing v with
  | nil => rfl
  | cons r l ih =>
    rw [List.flatMap_cons, List.foldl_append, round_eq m v hv, List.foldl_cons, ih]
    rw [← round_eq m v hv, fold_length, hv]

end Verif.Blake
