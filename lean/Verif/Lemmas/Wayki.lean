import Verif.Model.Wayki
import Verif.Spec.Wayki
import Verif.Lemmas.Hex
import Verif.Lemmas.BtcSig

/-! Lemmas about the WaykiChain model. -/

namespace Verif.Wayki
open Verif Verif.Spec.Wicc

/-! ### Variable length integers -/

theorem low_byte {k : Nat} (h : k < 128) : (UInt8.ofNat k ||| 0x00).toNat = k ∧ (UInt8.ofNat k ||| 0x80).toNat = k + 128 := by
  have : ∀ b : UInt8, b.toNat < 128 → (b ||| 0x00).toNat = b.toNat ∧ (b ||| 0x80).toNat = b.toNat + 128 := by
    apply Hex.u8_forall
    decide +kernel
  have e : (UInt8.ofNat k).toNat = k := by rw [UInt8.toNat_ofNat']; omega
  have := this (UInt8.ofNat k) (by omega)
  rwa [e] at this

theorem loop_high (m : Nat) : ∀ (n : Int), n.toNat = m → 0 ≤ n → ∀ tail,
    readVarInt 0 ((uvarintLoop 0x80 n).reverse ++ tail) = readVarInt (n.toNat + 1) tail := by
  induction m using Nat.strong_induction_on with
  | _ m ih =>
    intro n hn h0 tail
    have hb := (low_byte (k := (n % 128).toNat) (by omega)).2
    rw [uvarintLoop]
    split
    · simp only [List.reverse_cons, List.reverse_nil, List.nil_append, List.cons_append]
      rw [readVarInt, if_neg (by omega), hb]
      exact congrArg (readVarInt · tail) (by omega)
    · rename_i hc
      simp only [List.reverse_cons, List.append_assoc, List.cons_append, List.nil_append]
      rw [ih _ (by omega) (n / 128 - 1) rfl (by omega), readVarInt, if_neg (by omega), hb]
      exact congrArg (readVarInt · tail) (by omega)

theorem varInt_ok {n : Int} (h0 : 0 ≤ n) (rest : Bytes) : varInt (int64ToUvarint n ++ rest) = some (n.toNat, rest) := by
  have hb := (low_byte (k := (n % 128).toNat) (by omega)).1
  unfold varInt int64ToUvarint
  rw [uvarintLoop]
  split
  · simp only [List.reverse_cons, List.reverse_nil, List.nil_append, List.cons_append]
    rw [readVarInt, if_pos (by omega), hb]
    congr 2
    omega
  · simp only [List.reverse_cons, List.append_assoc, List.cons_append, List.nil_append]
    rw [loop_high _ (n / 128 - 1) rfl (by omega), readVarInt, if_pos (by omega), hb]
    congr 2
    omega

theorem varInt_neg {n : Int} (h0 : n < 0) : int64ToUvarint n = int64ToUvarint (n % 128) := by
  unfold int64ToUvarint
  rw [uvarintLoop, if_pos (by omega), uvarintLoop, if_pos (by omega), Int.emod_emod_of_dvd _ (Int.dvd_refl 128)]

theorem loop_length (k : Nat) : ∀ (h : UInt8) (n : Int), n < 128 ^ k → (uvarintLoop h n).length ≤ max k 1 := by
  induction k with
  | zero =>
    intro h n hn
    rw [uvarintLoop, if_pos (by omega)]
    simp
  | succ k ih =>
    intro h n hn
    rw [uvarintLoop]
    split
    · simp
    · rename_i hc
      have e : (128 : Int) ^ (k + 1) = 128 * 128 ^ k := by rw [Int.pow_succ, Int.mul_comm]
      have hk : k ≠ 0 := by
        rintro rfl
        simp at hn
        omega
      have := ih 0x80 (n / 128 - 1) (by omega)
      simp only [List.length_cons]
      omega

theorem uvarint_length {n : Int} (h : n < 2 ^ 63) : (int64ToUvarint n).length ≤ 9 := by
  have := loop_length 9 0x00 n (by omega)
  simp only [int64ToUvarint, List.length_reverse]
  omega

theorem uvarint_one : int64ToUvarint 1 = [1] := by decide +kernel

/-! ### Byte vectors -/

theorem vec_ok {d : Bytes} (h : d.length < 253) (rest : Bytes) : vec (UInt8.ofNat d.length :: d ++ rest) = some (d, rest) := by
  have e : (UInt8.ofNat d.length).toNat = d.length := by rw [UInt8.toNat_ofNat']; omega
  simp only [List.cons_append, vec, e]
  rw [if_pos h]
  simp [take]

theorem vec_bad {d : Bytes} (h : 253 ≤ d.length) : vec (UInt8.ofNat d.length :: d) ≠ some (d, []) := by
  have e : (UInt8.ofNat d.length).toNat = d.length % 256 := by rw [UInt8.toNat_ofNat']
  have tk : ∀ {n : Nat} {b p q : Bytes}, take n b = some (p, q) → b.length = p.length + q.length ∧ p.length = n := by
    intro n b p q hx
    unfold take at hx
    split at hx
    · cases hx
    · cases hx
      simp; omega
  intro hv
  simp only [vec] at hv
  split at hv
  · have := tk hv
    simp at this
    omega
  · obtain ⟨⟨l, r⟩, h1, h2⟩ := Option.bind_eq_some_iff.mp hv
    have a := tk h1
    have b := tk h2
    simp at a b
    split at a
    · omega
    split at a
    · omega
    · omega

/-! ### Numerals -/

theorem digit_iff (c : UInt8) : isDigit c = true ↔ 0x30 ≤ c.toNat ∧ c.toNat ≤ 0x39 := by
  unfold isDigit
  simp [UInt8.le_iff_toNat_le]

def Digits (t : Bytes) : Prop := ∀ c ∈ t, 0x30 ≤ c.toNat ∧ c.toNat ≤ 0x39

theorem decimal_le (t : Bytes) : ∀ n, n ≤ t.foldl (fun n c => n * 10 + (c.toNat - 0x30)) n := by
  induction t with
  | nil => simp
  | cons c t ih =>
    intro n
    simp only [List.foldl_cons]
    exact le_trans (by omega) (ih _)

theorem parseUint_digits (t : Bytes) : ∀ n, Digits t → n < 2 ^ 64 →
    parseUintLoop n t = some (min (t.foldl (fun n c => n * 10 + (c.toNat - 0x30)) n) (2 ^ 64 - 1)) := by
  induction t with
  | nil => intro n _ hn; simp only [parseUintLoop, List.foldl_nil]; congr 1; omega
  | cons c t ih =>
    intro n hd hn
    simp only [parseUintLoop, List.foldl_cons]
    have hc := (digit_iff c).mpr (hd c (by simp))
    rw [if_neg (by simp [hc])]
    split
    · rename_i ho
      have := decimal_le t (n * 10 + (c.toNat - 0x30))
      congr 1
      omega
    · exact ih _ (fun x hx => hd x (by simp [hx])) (by omega)

theorem parseInt_digits {t : Bytes} (hd : Digits t) (h0 : t ≠ []) : parseInt t = (min (decimal t) (2 ^ 63 - 1) : Nat) := by
  cases t with
  | nil => exact absurd rfl h0
  | cons c r =>
    have hc := hd c (by simp)
    have h1 : c ≠ 0x2d := by rintro rfl; simp at hc
    have h2 : c ≠ 0x2b := by rintro rfl; simp at hc
    unfold parseInt
    simp only [List.head?_cons, Option.some_beq_some, beq_iff_eq, h1, h2, or_self, Bool.or_eq_true, if_false]
    rw [parseUint_digits _ _ hd (by omega), if_neg (by simp)]
    have b1 : (c == 0x2d) = false := by simpa using h1
    simp only [b1, true_and, false_and, if_false]
    unfold decimal
    split <;> omega

theorem parseUint_bad (t : Bytes) (c : UInt8) (r : Bytes) (n : Nat) (ht : t = c :: r) (hc : isDigit c = false) :
    parseUintLoop n t = none := by
  subst ht
  simp [parseUintLoop, hc]

theorem isSpace_cases {c : UInt8} (h : isSpace c = true) : isDigit c = false ∧ c ≠ 0x2d ∧ c ≠ 0x2b := by
  revert c
  apply Hex.u8_forall
  decide +kernel

theorem isDigit_cases {c : UInt8} (h : isDigit c = true) : isSpace c = false ∧ c ≠ 0x2d ∧ c ≠ 0x2b := by
  revert c
  apply Hex.u8_forall
  decide +kernel

theorem parseInt_space {w t : Bytes} {c : UInt8} (h : isSpace c = true) (hw : w = c :: t) : parseInt w = 0 := by
  obtain ⟨h1, h2, h3⟩ := isSpace_cases h
  subst hw
  unfold parseInt
  simp only [List.head?_cons, Option.some_beq_some, beq_iff_eq, h2, h3, or_self, Bool.or_eq_true, if_false]
  rw [parseUint_bad _ c t 0 rfl h1]
  simp

/-! ### Splitting -/

theorem split_nodash {t : Bytes} (h : (0x2d : UInt8) ∉ t) : split t = [t] := by
  induction t with
  | nil => rfl
  | cons c r ih =>
    simp only [List.mem_cons, not_or] at h
    rw [split, if_neg (Ne.symm h.1), ih h.2]

theorem split_dash {a b : Bytes} (ha : (0x2d : UInt8) ∉ a) : split (a ++ 0x2d :: b) = a :: split b := by
  induction a with
  | nil => simp [split]
  | cons c r ih =>
    simp only [List.mem_cons, not_or] at ha
    rw [List.cons_append, split, if_neg (Ne.symm ha.1), ih ha.2]

theorem digits_nodash {t : Bytes} (h : Digits t) : (0x2d : UInt8) ∉ t := by
  intro hc
  have := h _ hc
  simp at this

theorem regIdBytes_two {a b : Bytes} (ha : (0x2d : UInt8) ∉ a) (hb : (0x2d : UInt8) ∉ b) :
    regIdBytes (a ++ asc "-" ++ b) = UInt8.ofNat (int64ToUvarint (parseInt a) ++ int64ToUvarint (parseInt b)).length ::
      (int64ToUvarint (parseInt a) ++ int64ToUvarint (parseInt b)) := by
  have e : a ++ asc "-" ++ b = a ++ 0x2d :: b := by simp [asc]
  unfold regIdBytes
  rw [e, split_dash ha, split_nodash hb]
  simp

theorem regId_ok {x y : Int} (hx : 0 ≤ x) (hy : 0 ≤ y) (hx2 : x < 2 ^ 63) (hy2 : y < 2 ^ 63) (rest : Bytes) :
    regId (UInt8.ofNat (int64ToUvarint x ++ int64ToUvarint y).length :: (int64ToUvarint x ++ int64ToUvarint y) ++ rest) =
      some ((x.toNat, y.toNat), rest) := by
  have l1 := uvarint_length hx2
  have l2 := uvarint_length hy2
  unfold regId
  rw [vec_ok (by simp; omega)]
  simp only [Option.bind_some]
  rw [varInt_ok hx]
  simp only [Option.bind_some]
  have := varInt_ok hy []
  rw [List.append_nil] at this
  rw [this]
  rfl

/-! ### The regular expression -/

theorem dropWhile_all {p : UInt8 → Bool} {w t : Bytes} (h : ∀ c ∈ w, p c = true) : (w ++ t).dropWhile p = t.dropWhile p := by
  induction w with
  | nil => rfl
  | cons c r ih =>
    rw [List.cons_append, List.dropWhile_cons, if_pos (h c (by simp))]
    exact ih (fun x hx => h x (by simp [hx]))

theorem dropWhile_stop {p : UInt8 → Bool} {c : UInt8} {t : Bytes} (h : p c = false) : (c :: t).dropWhile p = c :: t := by
  rw [List.dropWhile_cons, if_neg (by simp [h])]

theorem takeWhile_all {p : UInt8 → Bool} {w t : Bytes} (h : ∀ c ∈ w, p c = true) (ht : t = [] ∨ ∃ c r, t = c :: r ∧ p c = false) :
    (w ++ t).takeWhile p = w := by
  induction w with
  | nil =>
    rcases ht with rfl | ⟨c, r, rfl, hc⟩
    · rfl
    · simp [hc]
  | cons c r ih =>
    rw [List.cons_append, List.takeWhile_cons, if_pos (h c (by simp)), ih (fun x hx => h x (by simp [hx]))]

theorem regId_matches {w a b v : Bytes} (hw : ∀ c ∈ w, isSpace c = true) (hv : ∀ c ∈ v, isSpace c = true) (ha : Digits a) (hb : Digits b)
    (ha0 : a ≠ []) (hb0 : b ≠ []) : isRegIdStr (w ++ (a ++ asc "-" ++ b) ++ v) = true := by
  have e : w ++ (a ++ asc "-" ++ b) ++ v = w ++ (a ++ 0x2d :: (b ++ v)) := by simp [asc]
  have da : ∀ c ∈ a, isDigit c = true := fun c hc => (digit_iff c).mpr (ha c hc)
  have db : ∀ c ∈ b, isDigit c = true := fun c hc => (digit_iff c).mpr (hb c hc)
  have s1 : (w ++ (a ++ 0x2d :: (b ++ v))).dropWhile isSpace = a ++ 0x2d :: (b ++ v) := by
    rw [dropWhile_all hw]
    cases a with
    | nil => exact absurd rfl ha0
    | cons c r => exact dropWhile_stop (isDigit_cases (da c (by simp))).1
  have s2 : (a ++ 0x2d :: (b ++ v)).takeWhile isDigit = a := takeWhile_all da (Or.inr ⟨_, _, rfl, by decide⟩)
  have s3 : (a ++ 0x2d :: (b ++ v)).dropWhile isDigit = 0x2d :: (b ++ v) := by
    rw [dropWhile_all da, dropWhile_stop (by decide)]
  have hv' : v = [] ∨ ∃ c r, v = c :: r ∧ isDigit c = false := by
    cases v with
    | nil => exact Or.inl rfl
    | cons c r => exact Or.inr ⟨c, r, rfl, (isSpace_cases (hv c (by simp))).1⟩
  have s4 : (b ++ v).takeWhile isDigit = b := takeWhile_all db hv'
  have s5 : (b ++ v).dropWhile isDigit = v := by
    rw [dropWhile_all db]
    rcases hv' with rfl | ⟨c, r, rfl, hc⟩
    · rfl
    · exact dropWhile_stop hc
  have s6 : v.dropWhile isSpace = [] := by
    have := dropWhile_all (t := []) hv
    rwa [List.append_nil] at this
  unfold isRegIdStr
  rw [e]
  simp only [s1, s2, s3, s4, s5, s6]
  simp [ha0, hb0]

theorem takeWhile_mem {p : UInt8 → Bool} {t : Bytes} : ∀ c ∈ t.takeWhile p, p c = true := by
  induction t with
  | nil => simp
  | cons x r ih =>
    intro c hc
    rw [List.takeWhile_cons] at hc
    split at hc
    · rcases List.mem_cons.mp hc with rfl | hc
      · assumption
      · exact ih c hc
    · simp at hc

theorem dropWhile_nil {p : UInt8 → Bool} {t : Bytes} (h : t.dropWhile p = []) : ∀ c ∈ t, p c = true := by
  have := List.takeWhile_append_dropWhile (p := p) (l := t)
  rw [h, List.append_nil] at this
  rw [← this]
  exact takeWhile_mem

theorem regId_matched {t : Bytes} (h : isRegIdStr t = true) :
    ∃ w a b v, t = w ++ (a ++ asc "-" ++ b) ++ v ∧ (∀ c ∈ w, isSpace c = true) ∧ (∀ c ∈ v, isSpace c = true) ∧ Digits a ∧ Digits b ∧
      a ≠ [] ∧ b ≠ [] := by
  unfold isRegIdStr at h
  simp only at h
  split at h
  · rename_i t2 ht2
    simp only [Bool.and_eq_true, decide_eq_true_eq, beq_iff_eq] at h
    obtain ⟨⟨h1, h2⟩, h3⟩ := h
    refine ⟨t.takeWhile isSpace, (t.dropWhile isSpace).takeWhile isDigit, t2.takeWhile isDigit, t2.dropWhile isDigit, ?_, takeWhile_mem, ?_,
      fun c hc => (digit_iff c).mp (takeWhile_mem c hc), fun c hc => (digit_iff c).mp (takeWhile_mem c hc), h1, h2⟩
    · have e1 := List.takeWhile_append_dropWhile (p := isSpace) (l := t)
      have e2 := List.takeWhile_append_dropWhile (p := isDigit) (l := t.dropWhile isSpace)
      have e3 := List.takeWhile_append_dropWhile (p := isDigit) (l := t2)
      rw [ht2] at e2
      conv_lhs => rw [← e1, ← e2, ← e3]
      simp [asc]
    · intro c hc
      exact dropWhile_nil h3 c hc
  · cases h

end Verif.Wayki
