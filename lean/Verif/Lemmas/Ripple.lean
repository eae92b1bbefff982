import Verif.Model.Ripple
import Verif.Spec.Ripple
import Verif.Lemmas.Base
import Verif.Lemmas.Hex

/-! Lemmas about the XRP binary format. -/

namespace Verif.Ripple
open Verif Verif.Spec.Ripple

theorem fields_mono : ∀ (n k : Nat) (b : Bytes) (l : List (Nat × Nat × Bytes)), fields n b = some l → fields (n + k) b = some l := by
  intro n
  induction n with
  | zero =>
    intro k b l h
    cases b with
    | nil => cases k <;> simpa [fields] using h
    | cons x xs => simp [fields] at h
  | succ n ih =>
    intro k b l h
    cases b with
    | nil => rw [Nat.succ_add]; simpa [fields] using h
    | cons x xs =>
      rw [Nat.succ_add]
      unfold fields at h ⊢
      cases hid : readId (x :: xs) with
      | none => rw [hid] at h; simp at h
      | some v =>
        obtain ⟨t, f, r⟩ := v
        rw [hid] at h
        simp only at h ⊢
        cases hc : readContent t r with
        | none => rw [hc] at h; simp at h
        | some v =>
          obtain ⟨c, r'⟩ := v
          rw [hc] at h
          simp only at h ⊢
          cases hf : fields n r' with
          | none => rw [hf] at h; simp at h
          | some l' =>
            rw [hf] at h
            rw [ih k r' l' hf]
            exact h

/-- `b` is read as the fields `l`. -/
def Parses (b : Bytes) (l : List (Nat × Nat × Bytes)) : Prop := ∃ n, n ≤ b.length ∧ fields n b = some l

theorem Parses.parse {b : Bytes} {l : List (Nat × Nat × Bytes)} (h : Parses b l) : parse b = some l := by
  obtain ⟨n, hn, hf⟩ := h
  have := fields_mono n (b.length - n) b l hf
  rw [Nat.add_sub_cancel' hn] at this
  exact this

theorem Parses.nil : Parses [] [] := ⟨0, by simp, rfl⟩

theorem Parses.cons {b r r' c : Bytes} {t f : Nat} {l : List (Nat × Nat × Bytes)} (h1 : readId b = some (t, f, r))
    (h2 : readContent t r = some (c, r')) (hl : r'.length < b.length) (h : Parses r' l) : Parses b ((t, f, c) :: l) := by
  obtain ⟨n, hn, hf⟩ := h
  refine ⟨n + 1, by omega, ?_⟩
  cases b with
  | nil => simp at hl
  | cons x xs =>
    unfold fields
    rw [h1]
    simp only [h2, hf]

theorem takeExact_append (c r : Bytes) (n : Nat) (h : c.length = n) : takeExact n (c ++ r) = some (c, r) := by
  subst h
  simp [takeExact]

theorem content16 (c r : Bytes) (h : c.length = 2) : readContent 1 (c ++ r) = some (c, r) := by
  simp [readContent, takeExact_append c r 2 h]

theorem content32 (c r : Bytes) (h : c.length = 4) : readContent 2 (c ++ r) = some (c, r) := by
  simp [readContent, takeExact_append c r 4 h]

theorem contentMarker (t : Nat) (h : t = 14 ∨ t = 15) (r : Bytes) : readContent t r = some ([], r) := by
  rcases h with rfl | rfl <;> simp [readContent]

theorem contentAmount (n : Nat) (h : n < 2 ^ 62) (r : Bytes) : readContent 6 (amount n ++ r) = some (amount n, r) := by
  have hl : (amount n).length = 8 := by simp [amount]
  have hv : beNat (amount n) = 2 ^ 62 + n := beNat_beBytes_of_lt (by omega)
  unfold readContent
  rw [if_neg (by omega), if_neg (by omega), if_pos rfl, if_pos, takeExact_append _ _ _ hl]
  intro x hx
  cases hc : amount n with
  | nil => rw [hc] at hl; simp at hl
  | cons y t =>
    rw [hc] at hx hl hv
    simp at hx
    subst hx
    rw [beNat_cons] at hv
    have : t.length = 7 := by simpa using hl
    rw [this] at hv
    by_contra hcc
    have : 128 * 256 ^ 7 ≤ y.toNat * 256 ^ 7 := Nat.mul_le_mul_right _ (by omega)
    omega

theorem contentVL (t : Nat) (h : t = 7 ∨ t = 8) (c r : Bytes) (hc : c.length ≤ 192) :
    readContent t (lengthPrefixed c ++ r) = some (c, r) := by
  have e : (UInt8.ofNat c.length).toNat = c.length := by simp; omega
  unfold readContent
  rw [if_neg (by omega), if_neg (by omega), if_neg (by omega), if_pos h]
  unfold lengthPrefixed
  simp only [List.cons_append, readLength, e]
  rw [if_pos hc]
  exact takeExact_append c r _ rfl

theorem value_eq (n : UInt64) : valueBytes n = amount (n.toNat % 2 ^ 62) := by
  unfold valueBytes amount
  congr 1
  rw [UInt64.toNat_or, UInt64.toNat_and]
  have h1 : ((1 : UInt64) <<< 62).toNat = 2 ^ 62 := by decide
  have h2 : (((1 : UInt64) <<< 62) - 1).toNat = 2 ^ 62 - 1 := by decide
  rw [h1, h2, Nat.and_two_pow_sub_one_eq_mod]
  have := Nat.two_pow_add_eq_or_of_lt (i := 62) (b := n.toNat % 2 ^ 62) (Nat.mod_lt _ (by norm_num)) 1
  rw [Nat.mul_one] at this
  exact this.symm

/-! ### The length of what is read -/

/-- The size of the length prefix. -/
def lenSize (n : Nat) : Nat := if n ≤ 192 then 1 else if n ≤ 12480 then 2 else 3

/-- The size of a serialised field with a one-byte id of type `t`. -/
def contentSize (t : Nat) (c : Bytes) : Nat := if t = 7 ∨ t = 8 then lenSize c.length + c.length else c.length

theorem takeExact_length {n : Nat} {b c r : Bytes} (h : takeExact n b = some (c, r)) : c.length = n ∧ b.length = n + r.length := by
  unfold takeExact at h
  split at h
  · simp only [Option.some.injEq, Prod.mk.injEq] at h
    obtain ⟨rfl, rfl⟩ := h
    simp
    omega
  · cases h

theorem readContent_length {t : Nat} {b c r : Bytes} (h : readContent t b = some (c, r)) : b.length = contentSize t c + r.length := by
  unfold readContent at h
  unfold contentSize
  split at h
  · have := takeExact_length h
    rw [if_neg (by omega)]; omega
  split at h
  · have := takeExact_length h
    rw [if_neg (by omega)]; omega
  split at h
  · split at h
    · have := takeExact_length h
      rw [if_neg (by omega)]; omega
    · cases h
  split at h
  · rename_i ht
    rw [if_pos ht]
    split at h
    · rename_i n rest hr
      have := takeExact_length h
      unfold readLength at hr
      unfold lenSize
      cases b with
      | nil => simp at hr
      | cons a bs =>
        simp only at hr
        have ha := a.toNat_lt
        split at hr
        · simp only [Option.some.injEq, Prod.mk.injEq] at hr
          obtain ⟨hr1, rfl⟩ := hr
          rw [if_pos (by omega)]
          simp; omega
        split at hr
        · split at hr
          · rename_i y ys
            have hy := y.toNat_lt
            simp only [Option.some.injEq, Prod.mk.injEq] at hr
            obtain ⟨hr1, rfl⟩ := hr
            rw [if_neg (by omega), if_pos (by omega)]
            simp; omega
          · cases hr
        split at hr
        · split at hr
          · rename_i y z ys
            have hy := y.toNat_lt
            simp only [Option.some.injEq, Prod.mk.injEq] at hr
            obtain ⟨hr1, rfl⟩ := hr
            rw [if_neg (by omega), if_neg (by omega)]
            simp; omega
          · cases hr
        · cases hr
    · cases h
  split at h
  · rename_i ht
    simp only [Option.some.injEq, Prod.mk.injEq] at h
    obtain ⟨rfl, rfl⟩ := h
    rw [if_neg (by omega)]; simp
  · cases h

/-- A one-byte id. -/
theorem Parses.one {x : UInt8} {c r r' : Bytes} {l : List (Nat × Nat × Bytes)} (t f : Nat) (ht : x.toNat / 16 = t) (hf : x.toNat % 16 = f)
    (h0 : t ≠ 0 ∧ f ≠ 0) (h2 : readContent t r = some (c, r')) (h : Parses r' l) :
    Parses (x :: r) ((t, f, c) :: l) := by
  refine Parses.cons (r := r) ?_ h2 (by have := readContent_length h2; simp; omega) h
  unfold readId
  simp only [ht, hf]
  rw [if_pos h0]

/-- The least size of a field id. -/
def idSize (f : Nat) : Nat := if f < 16 then 1 else 2

theorem readId_length {b r : Bytes} {t f : Nat} (h : readId b = some (t, f, r)) : idSize f + r.length ≤ b.length := by
  unfold readId at h
  unfold idSize
  cases b with
  | nil => simp at h
  | cons x xs =>
    have hx := x.toNat_lt
    simp only at h
    split at h
    · simp only [Option.some.injEq, Prod.mk.injEq] at h
      obtain ⟨h1, h2, rfl⟩ := h
      rw [if_pos (by omega)]
      simp; omega
    · split at h
      all_goals first
        | (cases h; done)
        | (simp only [Option.some.injEq, Prod.mk.injEq] at h
           obtain ⟨_, _, rfl⟩ := h
           split <;> simp <;> omega)

/-- The least size of the serialisation of fields. -/
def minSize : List (Nat × Nat × Bytes) → Nat
  | [] => 0
  | (t, f, c) :: l => idSize f + contentSize t c + minSize l

theorem minSize_append (a b : List (Nat × Nat × Bytes)) : minSize (a ++ b) = minSize a + minSize b := by
  induction a with
  | nil => simp [minSize]
  | cons x xs ih =>
    obtain ⟨t, f, c⟩ := x
    simp only [List.cons_append, minSize, ih]
    omega

theorem fields_length : ∀ (n : Nat) (b : Bytes) (l : List (Nat × Nat × Bytes)), fields n b = some l → minSize l ≤ b.length := by
  intro n
  induction n with
  | zero =>
    intro b l h
    cases b with
    | nil => simp [fields] at h; subst h; simp [minSize]
    | cons x xs => simp [fields] at h
  | succ n ih =>
    intro b l h
    cases b with
    | nil => simp [fields] at h; subst h; simp [minSize]
    | cons x xs =>
      unfold fields at h
      cases hid : readId (x :: xs) with
      | none => rw [hid] at h; simp at h
      | some v =>
        obtain ⟨t, f, r⟩ := v
        rw [hid] at h
        simp only at h
        cases hc : readContent t r with
        | none => rw [hc] at h; simp at h
        | some v =>
          obtain ⟨c, r'⟩ := v
          rw [hc] at h
          simp only at h
          cases hf : fields n r' with
          | none => rw [hf] at h; simp at h
          | some l' =>
            rw [hf] at h
            simp only [Option.some.injEq] at h
            subst h
            have h1 := readId_length hid
            have h2 := readContent_length hc
            have h3 := ih r' l' hf
            simp only [minSize]
            omega

end Verif.Ripple
