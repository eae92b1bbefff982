import Verif.Model.Base
import Mathlib.Tactic.Ring
import Mathlib.Tactic.Linarith

/-! Helper lemmas about outcomes, slices and fixed-width integers. -/

namespace Verif

@[simp] theorem Res.bind_ok {α : Type u} {β : Type u} (a : α) (f : α → Res β) :
    (Res.ok a >>= f) = f a := rfl
@[simp] theorem Res.bind_err {α : Type u} {β : Type u} (f : α → Res β) :
    ((Res.err : Res α) >>= f) = Res.err := rfl
@[simp] theorem Res.bind_panic {α : Type u} {β : Type u} (f : α → Res β) :
    ((Res.panic : Res α) >>= f) = Res.panic := rfl
@[simp] theorem Res.pure_eq {α : Type u} (a : α) : (pure a : Res α) = Res.ok a := rfl
@[simp] theorem Res.isOk_ok {α : Type u} (a : α) : (Res.ok a).isOk = true := rfl
@[simp] theorem Res.isOk_err {α : Type u} : (Res.err : Res α).isOk = false := rfl
@[simp] theorem Res.isOk_panic {α : Type u} : (Res.panic : Res α).isOk = false := rfl

theorem Res.bind_eq_ok {α β : Type u} {x : Res α} {f : α → Res β} {b : β} :
    (x >>= f) = Res.ok b ↔ ∃ a, x = Res.ok a ∧ f a = Res.ok b := by
  cases x <;> simp

theorem Res.bind_eq_panic {α β : Type u} {x : Res α} {f : α → Res β} :
    (x >>= f) = Res.panic ↔ x = Res.panic ∨ ∃ a, x = Res.ok a ∧ f a = Res.panic := by
  cases x <;> simp

theorem slice_ok {α : Type u} {b : List α} {i j : Nat} (h : i ≤ j) (h2 : j ≤ b.length) :
    slice b i j = .ok ((b.take j).drop i) := by simp [slice, h, h2]

theorem slice_prefix {α : Type u} (a b : List α) {n : Nat} (h : a.length = n) :
    slice (a ++ b) 0 n = .ok a := by
  subst h; simp [slice]

theorem slice_mid {α : Type u} (a b c : List α) {i j : Nat} (hi : a.length = i)
    (hj : i + b.length = j) : slice (a ++ (b ++ c)) i j = .ok b := by
  subst hi hj
  simp [slice, List.take_append]

theorem slice_suffix {α : Type u} (a b : List α) {i j : Nat} (hi : a.length = i)
    (hj : i + b.length = j) : slice (a ++ b) i j = .ok b := by
  subst hi hj
  simp [slice, List.take_append]

theorem slice_length {α : Type u} {b c : List α} {i j : Nat} (h : slice b i j = .ok c) :
    c.length = j - i ∧ i ≤ j ∧ j ≤ b.length := by
  unfold slice at h
  split at h
  · rename_i h'
    cases h
    simp
    omega
  · cases h

@[simp] theorem index_append_right {α : Type u} (a : List α) (x : α) (b : List α) :
    index (a ++ x :: b) a.length = .ok x := by
  simp [index]

theorem index_ok {α : Type u} {b : List α} {i : Nat} (h : i < b.length) :
    index b i = .ok b[i] := by
  simp [index, h]

theorem index_panic {α : Type u} {b : List α} {i : Nat} (h : b.length ≤ i) :
    index b i = .panic := by
  simp [index, h]

@[simp] theorem leBytes_length (k n : Nat) : (leBytes k n).length = k := by
  induction k generalizing n with
  | zero => rfl
  | succ k ih => simp [leBytes, ih]

@[simp] theorem beBytes_length (k n : Nat) : (beBytes k n).length = k := by simp [beBytes]

theorem leNat_leBytes (k n : Nat) : leNat (leBytes k n) = n % 256 ^ k := by
  induction k generalizing n with
  | zero => simp [leBytes, leNat, Nat.mod_one]
  | succ k ih =>
    simp only [leBytes, leNat, ih, UInt8.toNat_ofNat']
    have h : (256 : Nat) ^ (k + 1) = 256 * 256 ^ k := pow_succ' 256 k
    rw [h, Nat.mod_mul]

theorem leNat_leBytes_of_lt {k n : Nat} (h : n < 256 ^ k) : leNat (leBytes k n) = n := by
  rw [leNat_leBytes, Nat.mod_eq_of_lt h]

theorem beNat_beBytes (k n : Nat) : beNat (beBytes k n) = n % 256 ^ k := by
  simp [beNat, beBytes, leNat_leBytes]

theorem beNat_beBytes_of_lt {k n : Nat} (h : n < 256 ^ k) : beNat (beBytes k n) = n := by
  rw [beNat_beBytes, Nat.mod_eq_of_lt h]

theorem leBytes_leNat (b : Bytes) : leBytes b.length (leNat b) = b := by
  induction b with
  | nil => rfl
  | cons x xs ih =>
    have hx := x.toNat_lt
    have h1 : (x.toNat + 256 * leNat xs) / 256 = leNat xs := by omega
    have h2 : UInt8.ofNat (x.toNat + 256 * leNat xs) = x := by
      apply UInt8.toNat_inj.mp
      rw [UInt8.toNat_ofNat']
      omega
    simp [leBytes, leNat, h1, h2, ih]

theorem beBytes_beNat (b : Bytes) : beBytes b.length (beNat b) = b := by
  have := leBytes_leNat b.reverse
  simp only [List.length_reverse] at this
  simp [beBytes, beNat, this]

theorem leNat_lt (b : Bytes) : leNat b < 256 ^ b.length := by
  induction b with
  | nil => simp [leNat]
  | cons x xs ih =>
    have hx := x.toNat_lt
    simp only [leNat, List.length_cons, pow_succ']
    omega

theorem beNat_lt (b : Bytes) : beNat b < 256 ^ b.length := by
  have := leNat_lt b.reverse
  simpa [beNat] using this

theorem leNat_append (a b : Bytes) : leNat (a ++ b) = leNat a + 256 ^ a.length * leNat b := by
  induction a with
  | nil => simp [leNat]
  | cons x xs ih => simp only [List.cons_append, leNat, ih, List.length_cons, pow_succ']; ring

theorem beNat_append (a b : Bytes) : beNat (a ++ b) = beNat a * 256 ^ b.length + beNat b := by
  simp only [beNat, List.reverse_append, leNat_append, List.length_reverse]; ring

@[simp] theorem beNat_nil : beNat [] = 0 := rfl
@[simp] theorem leNat_nil : leNat [] = 0 := rfl

theorem beNat_cons (x : UInt8) (b : Bytes) : beNat (x :: b) = x.toNat * 256 ^ b.length + beNat b := by
  have := beNat_append [x] b
  simpa [beNat, leNat] using this

theorem leNat_inj {a b : Bytes} (hl : a.length = b.length) (h : leNat a = leNat b) : a = b := by
  rw [← leBytes_leNat a, ← leBytes_leNat b, hl, h]

theorem beNat_inj {a b : Bytes} (hl : a.length = b.length) (h : beNat a = beNat b) : a = b := by
  rw [← beBytes_beNat a, ← beBytes_beNat b, hl, h]

theorem leBytes_mod (k n : Nat) : leBytes k (n % 256 ^ k) = leBytes k n := by
  apply leNat_inj (by simp)
  simp [leNat_leBytes]

theorem leBytes_inj {k m n : Nat} (hm : m < 256 ^ k) (hn : n < 256 ^ k)
    (h : leBytes k m = leBytes k n) : m = n := by
  rw [← leNat_leBytes_of_lt hm, h, leNat_leBytes_of_lt hn]

theorem beBytes_inj {k m n : Nat} (hm : m < 256 ^ k) (hn : n < 256 ^ k)
    (h : beBytes k m = beBytes k n) : m = n := by
  rw [← beNat_beBytes_of_lt hm, h, beNat_beBytes_of_lt hn]

end Verif
