import Verif.Model.Hex
import Verif.Lemmas.Base

namespace Verif.Hex
open Verif

theorem u8_forall {p : UInt8 → Prop} [DecidablePred p] (h : ∀ n : Fin 256, p (UInt8.ofNat n.val)) (x : UInt8) : p x := by
  have := h ⟨x.toNat, x.toNat_lt⟩
  simpa using this

theorem value_digit_hi (b : UInt8) : value (digit (b / 16)) = some (b / 16) := by
  revert b; apply u8_forall; decide +kernel

theorem value_digit_lo (b : UInt8) : value (digit (b % 16)) = some (b % 16) := by
  revert b; apply u8_forall; decide +kernel

theorem nibbles (b : UInt8) : b / 16 * 16 + b % 16 = b := by
  revert b; apply u8_forall; decide +kernel

theorem digit_value (c : UInt8) : ∀ v ∈ value c, v < 16 ∧ (digit v = c ∨ digit v = c + 0x20) := by
  revert c; apply u8_forall; decide +kernel

@[simp] theorem encode_length (b : Bytes) : (encode b).length = 2 * b.length := by
  induction b with
  | nil => rfl
  | cons x xs ih => simp [encode, ih]; omega

theorem encode_append (a b : Bytes) : encode (a ++ b) = encode a ++ encode b := by
  induction a with
  | nil => rfl
  | cons x xs ih => simp [encode, ih]

theorem decode_encode (b : Bytes) : decode (encode b) = .ok b := by
  induction b with
  | nil => rfl
  | cons x xs ih => simp [encode, decode, value_digit_hi, value_digit_lo, ih, nibbles]

theorem encode_inj {a b : Bytes} (h : encode a = encode b) : a = b := by
  have h1 := decode_encode a
  rw [h, decode_encode] at h1
  exact (Res.ok.inj h1).symm

theorem decode_ne_panic : ∀ t : Bytes, decode t ≠ .panic
  | [] => by simp [decode]
  | [_] => by simp [decode]
  | a :: b :: rest => by
    have ih := decode_ne_panic rest
    unfold decode
    split
    · cases h : decode rest <;> simp_all
    · simp

theorem decode_length : ∀ (t b : Bytes), decode t = .ok b → t.length = 2 * b.length
  | [], b, h => by simp [decode] at h; subst h; rfl
  | [_], b, h => by simp [decode] at h
  | a :: c :: rest, b, h => by
    unfold decode at h
    split at h
    · split at h
      · rename_i bs hbs
        cases h
        have := decode_length rest bs hbs
        simp; omega
      · cases h
      · cases h
    · cases h

/-- A text of even length whose characters are all hex digits decodes; otherwise it is an error. -/
theorem decode_isOk_iff : ∀ t : Bytes, (∃ b, decode t = .ok b) ↔ (t.length % 2 = 0 ∧ ∀ c ∈ t, value c ≠ none)
  | [] => by simp [decode]
  | [_] => by simp [decode]
  | a :: c :: rest => by
    have ih := decode_isOk_iff rest
    unfold decode
    constructor
    · rintro ⟨b, h⟩
      split at h
      · rename_i x y hx hy
        split at h
        · rename_i bs hbs
          have := ih.mp ⟨bs, hbs⟩
          refine ⟨by simp; omega, ?_⟩
          intro z hz
          simp only [List.mem_cons] at hz
          rcases hz with rfl | rfl | hz
          · simp [hx]
          · simp [hy]
          · exact this.2 z hz
        · cases h
        · cases h
      · cases h
    · rintro ⟨h1, h2⟩
      have ha := h2 a (by simp)
      have hc := h2 c (by simp)
      obtain ⟨x, hx⟩ := Option.ne_none_iff_exists'.mp ha
      obtain ⟨y, hy⟩ := Option.ne_none_iff_exists'.mp hc
      obtain ⟨b, hb⟩ := ih.mpr ⟨by simp at h1; omega, fun z hz => h2 z (by simp [hz])⟩
      exact ⟨_, by simp [hx, hy, hb]; rfl⟩

theorem decodePrefix_of_ok : ∀ (t b : Bytes), decode t = .ok b → decodePrefix t = b
  | [], b, h => by simp [decode] at h; subst h; rfl
  | [_], b, h => by simp [decode] at h
  | a :: c :: rest, b, h => by
    unfold decode at h
    unfold decodePrefix
    split at h
    · split at h
      · rename_i hr
        cases h
        rw [decodePrefix_of_ok rest _ hr]
      · cases h
      · cases h
    · cases h

theorem decodePrefix_encode (b : Bytes) : decodePrefix (encode b) = b := decodePrefix_of_ok _ _ (decode_encode b)

theorem decodePrefix_append : ∀ (t b r : Bytes), decode t = .ok b → decodePrefix (t ++ r) = b ++ decodePrefix r
  | [], b, r, h => by simp [decode] at h; subst h; rfl
  | [_], b, r, h => by simp [decode] at h
  | a :: c :: rest, b, r, h => by
    unfold decode at h
    rw [List.cons_append, List.cons_append]
    conv_lhs => unfold decodePrefix
    split at h
    · split at h
      · rename_i hr
        cases h
        rw [decodePrefix_append rest _ r hr]; rfl
      · cases h
      · cases h
    · cases h

end Verif.Hex
