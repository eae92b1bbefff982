import Verif.Model.Moac
import Verif.Spec.Rlp
import Verif.Lemmas.OwKeychain
import Verif.Lemmas.Hex

namespace Verif.Spec.Rlp
open Verif

theorem be_pos {n : Nat} (h : n ≠ 0) : be n = be (n / 256) ++ [UInt8.ofNat (n % 256)] := by
  rw [be, if_neg h]

@[simp] theorem be_zero : be 0 = [] := by rw [be]; rfl

theorem bigBytes_eq (n : Nat) : OwKeychain.bigBytes n = be n := by
  induction n using Nat.strong_induction_on with
  | _ n ih =>
    by_cases h : n = 0
    · subst h
      simp [OwKeychain.bigBytes]
    · rw [be_pos h, ← ih (n / 256) (by omega)]
      unfold OwKeychain.bigBytes
      rw [Nat.digits_def' (by omega) (by omega)]
      simp

theorem beNat_be (n : Nat) : beNat (be n) = n := by rw [← bigBytes_eq, OwKeychain.beNat_bigBytes]

theorem be_length_le (n k : Nat) : (be n).length ≤ k ↔ n < 256 ^ k := by rw [← bigBytes_eq, OwKeychain.bigBytes_length_le]

theorem be_inj {m n : Nat} (h : be m = be n) : m = n := by rw [← beNat_be m, h, beNat_be]

theorem be_head {n : Nat} {x : UInt8} {r : Bytes} (h : be n = x :: r) : x ≠ 0 := by
  intro h0
  have h1 := beNat_be n
  rw [h, h0, beNat_cons] at h1
  simp only [UInt8.toNat_zero, Nat.zero_mul, Nat.zero_add] at h1
  have h2 := (be_length_le n r.length).mpr (by rw [← h1]; exact beNat_lt r)
  rw [h] at h2
  simp at h2

theorem be_beNat (b : Bytes) : be (beNat b) = b.dropWhile (· = 0) := by
  induction b with
  | nil => simp
  | cons x r ih =>
    by_cases hx : x = 0
    · subst hx
      rw [beNat_cons]
      simp [ih]
    · rw [List.dropWhile_cons_of_neg (by simpa using hx)]
      have hl : (be (beNat (x :: r))).length = (x :: r).length := by
        apply Nat.le_antisymm
        · exact (be_length_le _ _).mpr (beNat_lt _)
        · by_contra hc
          have h2 := (be_length_le (beNat (x :: r)) r.length).mp (by simp only [List.length_cons] at hc; omega)
          rw [beNat_cons] at h2
          have hx' : 0 < x.toNat := by
            rcases Nat.eq_zero_or_pos x.toNat with h | h
            · exact absurd (UInt8.toNat_inj.mp h) hx
            · exact h
          have : 256 ^ r.length ≤ x.toNat * 256 ^ r.length := Nat.le_mul_of_pos_left _ hx'
          omega
      exact beNat_inj hl (beNat_be _)

theorem be_beBytes {k n : Nat} (h : n < 256 ^ k) : (beBytes k n).dropWhile (· = 0) = be n := by
  rw [← be_beNat, beNat_beBytes_of_lt h]

theorem be_one {n : Nat} (h0 : n ≠ 0) (h : n < 256) : be n = [UInt8.ofNat n] := by
  rw [be_pos h0, Nat.div_eq_of_lt h, be_zero, Nat.mod_eq_of_lt h, List.nil_append]

theorem str_short {x : Bytes} (h : x.length < 56) (hx : ¬ (x.length = 1 ∧ ∀ c ∈ x, c < 0x80)) :
    str x = UInt8.ofNat (128 + x.length) :: x := by
  unfold str
  rw [if_neg hx, if_pos h]

/-- Numbers other than 1 to 127, with at most 55 bytes. -/
theorem str_be {n : Nat} (h : n = 0 ∨ 128 ≤ n) (hl : n < 256 ^ 55) : str (be n) = Moac.getLengthBytes (be n).length ++ be n := by
  have := (be_length_le n 55).mpr hl
  rw [str_short (by omega)]
  · rw [Nat.add_comm]; rfl
  · rintro ⟨h1, h2⟩
    rcases h with rfl | h
    · simp at h1
    · have h3 := (be_length_le n 1).mp (by omega)
      rw [be_one (by omega) (by omega)] at h2
      have := h2 _ (List.mem_singleton.mpr rfl)
      rw [UInt8.lt_iff_toNat_lt] at this
      simp at this
      omega

theorem str_be_small {n : Nat} (h0 : n ≠ 0) (h : n < 128) : str (be n) = [UInt8.ofNat n] := by
  rw [be_one h0 (by omega)]
  unfold str
  rw [if_pos]
  refine ⟨rfl, fun c hc => ?_⟩
  rw [List.mem_singleton.mp hc, UInt8.lt_iff_toNat_lt]
  simp
  omega

theorem uint64_eq (d : UInt64) : Moac.getUint64Bytes d = str (be d.toNat) := by
  unfold Moac.getUint64Bytes
  have hd := d.toNat_lt
  by_cases h0 : d = 0
  · rw [if_pos h0, h0]
    simp [str]
  have h0' : d.toNat ≠ 0 := fun h => h0 (UInt64.toNat_inj.mp h)
  rw [if_neg h0]
  by_cases h1 : d < 0x80
  · rw [if_pos h1, str_be_small h0' (by simpa [UInt64.lt_iff_toNat_lt] using h1)]
  · rw [if_neg h1]
    simp only
    have h2 : 128 ≤ d.toNat := by simpa [UInt64.lt_iff_toNat_lt] using h1
    rw [be_beBytes (by omega), str_be (Or.inr h2) (lt_of_lt_of_le hd (by norm_num))]

theorem putint_eq {n : Nat} (h0 : n ≠ 0) (h : n < 2 ^ 64) : Moac.putintSize n = (be n).length := by
  have key : ∀ k, (be n).length ≤ k ↔ n < 256 ^ k := be_length_le n
  have k0 := key 0
  have k1 := key 1
  have k2 := key 2
  have k3 := key 3
  have k4 := key 4
  have k5 := key 5
  have k6 := key 6
  have k7 := key 7
  have k8 := key 8
  norm_num at k0 k1 k2 k3 k4 k5 k6 k7 k8
  unfold Moac.putintSize
  norm_num
  have : (be n).length ≠ 0 := by
    intro h
    exact h0 (k0.mp (List.length_eq_zero_iff.mp h))
  repeat' split
  all_goals omega

theorem beBytes_be (n : Nat) : beBytes (be n).length n = be n := by
  have := beBytes_beNat (be n)
  rwa [beNat_be] at this

/-- A list with content `s`. -/
def listOf (s : Bytes) : Bytes :=
  if s.length < 56 then UInt8.ofNat (192 + s.length) :: s
  else UInt8.ofNat (247 + (be s.length).length) :: (be s.length ++ s)

theorem list_eq (l : List Bytes) : list l = listOf (l.flatMap str) := rfl

theorem head_eq {s : Bytes} (h : s.length < 2 ^ 64) : Moac.getHeadBytes s.length ++ s = listOf s := by
  unfold Moac.getHeadBytes listOf
  split
  · rw [UInt8.ofNat_add]; rfl
  · rw [putint_eq (by omega) h, beBytes_be, UInt8.ofNat_add]; rfl

theorem be_len8 {n : Nat} (h : n < 2 ^ 64) : (be n).length ≤ 8 := (be_length_le n 8).mpr (by rw [show (256 : Nat) ^ 8 = 2 ^ 64 by norm_num]; exact h)

theorem ofNat_inj {m n : Nat} (hm : m < 256) (hn : n < 256) (h : UInt8.ofNat m = UInt8.ofNat n) : m = n := by
  have := congrArg UInt8.toNat h
  simp only [UInt8.toNat_ofNat'] at this
  omega

theorem listOf_inj {s t : Bytes} (hs : s.length < 2 ^ 64) (ht : t.length < 2 ^ 64) (h : listOf s = listOf t) : s = t := by
  have b1 := be_len8 hs
  have b2 := be_len8 ht
  unfold listOf at h
  have p1 : ¬ s.length < 56 → 1 ≤ (be s.length).length := by
    intro h
    by_contra hc
    have := (be_length_le s.length 0).mp (by omega)
    simp at this; simp [this] at h
  have p2 : ¬ t.length < 56 → 1 ≤ (be t.length).length := by
    intro h
    by_contra hc
    have := (be_length_le t.length 0).mp (by omega)
    simp at this; simp [this] at h
  split at h <;> split at h
  · exact (List.cons.inj h).2
  · rename_i h1 h2
    have := ofNat_inj (by omega) (by omega) (List.cons.inj h).1
    have := p2 h2
    omega
  · rename_i h1 h2
    have := ofNat_inj (by omega) (by omega) (List.cons.inj h).1
    have := p1 h1
    omega
  · have h1 := ofNat_inj (by omega) (by omega) (List.cons.inj h).1
    exact (List.append_inj (List.cons.inj h).2 (by omega)).2

theorem str_ne {x : Bytes} : str x ≠ [] := by
  unfold str
  split
  · rename_i h
    intro h0
    rw [h0] at h
    simp at h
  split <;> simp

/-- Self-delimiting. -/
theorem str_prefix {x y a b : Bytes} (hx : x.length < 2 ^ 64) (hy : y.length < 2 ^ 64) (h : str x ++ a = str y ++ b) : x = y ∧ a = b := by
  have b1 := be_len8 hx
  have b2 := be_len8 hy
  have p1 : ¬ x.length < 56 → 1 ≤ (be x.length).length := by
    intro h
    by_contra hc
    have := (be_length_le x.length 0).mp (by omega)
    simp at this; simp [this] at h
  have p2 : ¬ y.length < 56 → 1 ≤ (be y.length).length := by
    intro h
    by_contra hc
    have := (be_length_le y.length 0).mp (by omega)
    simp at this; simp [this] at h
  have one : ∀ {x : Bytes}, (x.length = 1 ∧ ∀ c ∈ x, c < 0x80) → ∃ c, x = [c] ∧ c.toNat < 128 := by
    rintro x ⟨h1, h2⟩
    match x, h1 with
    | [c], _ => exact ⟨c, rfl, UInt8.lt_iff_toNat_lt.mp (h2 c (List.mem_singleton.mpr rfl))⟩
  have big : ∀ {c : UInt8} {n : Nat}, c.toNat < 128 → 128 ≤ n → n < 256 → c ≠ UInt8.ofNat n := by
    intro c n h1 h2 h3 h4
    rw [h4] at h1
    simp only [UInt8.toNat_ofNat'] at h1
    omega
  unfold str at h
  split at h
  · rename_i hx1
    obtain ⟨c, rfl, hc⟩ := one hx1
    split at h
    · rename_i hy1
      obtain ⟨d, rfl, hd⟩ := one hy1
      simp only [List.cons_append, List.nil_append, List.cons.injEq] at h
      exact ⟨by rw [h.1], h.2⟩
    split at h
    · exact absurd (List.cons.inj h).1 (big hc (by omega) (by omega))
    · rename_i h1
      exact absurd (List.cons.inj h).1 (big hc (by omega) (by omega))
  split at h
  · split at h
    · rename_i hy1
      obtain ⟨d, rfl, hd⟩ := one hy1
      exact absurd (List.cons.inj h).1.symm (big hd (by omega) (by omega))
    split at h
    · have h1 := ofNat_inj (by omega) (by omega) (List.cons.inj h).1
      exact List.append_inj (List.cons.inj h).2 (by omega)
    · rename_i h1
      have h1' := ofNat_inj (by omega) (by omega) (List.cons.inj h).1
      have := p2 h1
      omega
  · rename_i hx1 hx2
    split at h
    · rename_i hy1
      obtain ⟨d, rfl, hd⟩ := one hy1
      exact absurd (List.cons.inj h).1.symm (big hd (by omega) (by omega))
    split at h
    · have h1' := ofNat_inj (by omega) (by omega) (List.cons.inj h).1
      have := p1 hx2
      omega
    · have h1 := ofNat_inj (by omega) (by omega) (List.cons.inj h).1
      have h2 : (be x.length ++ x) ++ a = (be y.length ++ y) ++ b := (List.cons.inj h).2
      rw [List.append_assoc, List.append_assoc] at h2
      obtain ⟨h3, h4⟩ := List.append_inj h2 (by omega)
      have h5 := be_inj h3
      exact List.append_inj h4 h5

theorem flatMap_str_inj {l m : List Bytes} (hl : ∀ x ∈ l, x.length < 2 ^ 64) (hm : ∀ x ∈ m, x.length < 2 ^ 64)
    (h : l.flatMap str = m.flatMap str) : l = m := by
  induction l generalizing m with
  | nil =>
    cases m with
    | nil => rfl
    | cons y m =>
      rw [List.flatMap_nil, List.flatMap_cons] at h
      have := (List.append_eq_nil_iff.mp h.symm).1
      exact absurd this str_ne
  | cons x l ih =>
    cases m with
    | nil =>
      rw [List.flatMap_nil, List.flatMap_cons] at h
      have := (List.append_eq_nil_iff.mp h).1
      exact absurd this str_ne
    | cons y m =>
      rw [List.flatMap_cons, List.flatMap_cons] at h
      obtain ⟨h1, h2⟩ := str_prefix (hl x (by simp)) (hm y (by simp)) h
      rw [h1, ih (fun z hz => hl z (by simp [hz])) (fun z hz => hm z (by simp [hz])) h2]

theorem list_inj {l m : List Bytes} (hl : Defined l) (hm : Defined m) (h : list l = list m) : l = m :=
  flatMap_str_inj hl.1 hm.1 (listOf_inj hl.2 hm.2 h)

/-- The byte 0x81 followed by a byte below 0x80 begins no canonical string. -/
theorem not_canonical {v : UInt8} (hv : v.toNat < 128) (r : Bytes) (l : List Bytes) (hl : ∀ x ∈ l, x.length < 2 ^ 64) :
    l.flatMap str ≠ 0x81 :: v :: r := by
  intro h
  cases l with
  | nil => simp at h
  | cons x l =>
    have hx := hl x (by simp)
    have b1 := be_len8 hx
    rw [List.flatMap_cons] at h
    unfold str at h
    split at h
    · rename_i h1
      match x, h1 with
      | [c], h1 =>
        have := h1.2 c (List.mem_singleton.mpr rfl)
        rw [List.cons_append] at h
        rw [(List.cons.inj h).1] at this
        exact absurd this (by decide)
    · rename_i h1
      split at h
      · have e : (0x81 : UInt8) = UInt8.ofNat 129 := rfl
        rw [List.cons_append, e] at h
        have h2 := ofNat_inj (by omega) (by omega) (List.cons.inj h).1
        apply h1
        match x, (by omega : x.length = 1) with
        | [c], _ =>
          have h3 := (List.cons.inj h).2
          rw [List.cons_append] at h3
          refine ⟨rfl, fun d hd => ?_⟩
          rw [List.mem_singleton.mp hd, (List.cons.inj h3).1]
          exact UInt8.lt_iff_toNat_lt.mpr hv
      · have e : (0x81 : UInt8) = UInt8.ofNat 129 := rfl
        rw [List.cons_append, e] at h
        have h2 := ofNat_inj (by omega) (by omega) (List.cons.inj h).1
        omega

end Verif.Spec.Rlp
