import Verif.Model.Base64
import Verif.Spec.Base64
import Verif.Spec.Json

namespace Verif.Base64
open Verif Verif.Spec

theorem sym_table : ∀ v : Fin 64, b64Value (alphabet.getD v.val 0) = some v.val ∧ (alphabet.getD v.val 0).toNat < 128 := by decide +kernel

theorem sym_value (v : Nat) : b64Value (sym v) = some (v % 64) := (sym_table ⟨v % 64, Nat.mod_lt _ (by omega)⟩).1
theorem sym_ascii (v : Nat) : (sym v).toNat < 128 := (sym_table ⟨v % 64, Nat.mod_lt _ (by omega)⟩).2

theorem encode_spec : ∀ d : Bytes, IsBase64 (encode d) d
  | x :: y :: z :: r => by
    have hx := x.toNat_lt; have hy := y.toNat_lt; have hz := z.toNat_lt
    rw [encode]
    exact IsBase64.three _ _ _ _ _ _ _ _ _ _ _ _ _ (sym_value _) (sym_value _) (sym_value _) (sym_value _) (by omega) (encode_spec r)
  | [x, y] => by
    have hx := x.toNat_lt; have hy := y.toNat_lt
    rw [encode]
    exact IsBase64.two _ _ _ _ _ _ _ _ (sym_value _) (sym_value _) (sym_value _) (by omega)
  | [x] => by
    have hx := x.toNat_lt
    rw [encode]
    exact IsBase64.one _ _ _ _ _ (sym_value _) (sym_value _) (by omega)
  | [] => by rw [encode]; exact IsBase64.nil

theorem encode_ascii : ∀ (d : Bytes), ∀ b ∈ encode d, b.toNat < 128
  | x :: y :: z :: r => by
    intro b hb
    simp only [encode, List.mem_cons] at hb
    rcases hb with rfl | rfl | rfl | rfl | hb
    · exact sym_ascii _
    · exact sym_ascii _
    · exact sym_ascii _
    · exact sym_ascii _
    · exact encode_ascii r b hb
  | [x, y] => by
    intro b hb
    simp only [encode, List.mem_cons, List.not_mem_nil, or_false] at hb
    rcases hb with rfl | rfl | rfl | rfl
    · exact sym_ascii _
    · exact sym_ascii _
    · exact sym_ascii _
    · decide
  | [x] => by
    intro b hb
    simp only [encode, List.mem_cons, List.not_mem_nil, or_false] at hb
    rcases hb with rfl | rfl | rfl | rfl
    · exact sym_ascii _
    · exact sym_ascii _
    · decide
    · decide
  | [] => by intro b hb; simp [encode] at hb

theorem u8_eq {x y : UInt8} (h : x.toNat = y.toNat) : x = y := UInt8.toNat_inj.mp h

theorem pad_value : b64Value 0x3d = none := by decide

/-- A text stands for one byte string only. -/
theorem base64_unique {t s s' : Bytes} (h : IsBase64 t s) (h' : IsBase64 t s') : s = s' := by
  induction h generalizing s' with
  | nil => cases h'; rfl
  | one a b x va vb ha hb he =>
    cases h' with
    | one _ _ x' va' vb' ha' hb' he' =>
      rw [ha] at ha'; rw [hb] at hb'
      cases ha'; cases hb'
      rw [u8_eq (by omega : x.toNat = x'.toNat)]
    | two _ _ _ _ _ _ _ _ _ _ hc => rw [pad_value] at hc; cases hc
    | three _ _ _ _ _ _ _ _ _ _ _ _ _ _ _ hc => rw [pad_value] at hc; cases hc
  | two a b c x y va vb vc ha hb hc he =>
    cases h' with
    | one => rw [pad_value] at hc; cases hc
    | two _ _ _ x' y' va' vb' vc' ha' hb' hc' he' =>
      rw [ha] at ha'; rw [hb] at hb'; rw [hc] at hc'
      cases ha'; cases hb'; cases hc'
      have hy := y.toNat_lt; have hy' := y'.toNat_lt
      rw [u8_eq (by omega : x.toNat = x'.toNat), u8_eq (by omega : y.toNat = y'.toNat)]
    | three _ _ _ _ _ _ _ _ _ _ _ _ _ _ _ _ hd => rw [pad_value] at hd; cases hd
  | three a b c d x y z va vb vc vd t s ha hb hc hd he _ ih =>
    cases h' with
    | one => rw [pad_value] at hc; cases hc
    | two => rw [pad_value] at hd; cases hd
    | three _ _ _ _ x' y' z' va' vb' vc' vd' _ s' ha' hb' hc' hd' he' ht =>
      rw [ha] at ha'; rw [hb] at hb'; rw [hc] at hc'; rw [hd] at hd'
      cases ha'; cases hb'; cases hc'; cases hd'
      have hy := y.toNat_lt; have hy' := y'.toNat_lt
      have hz := z.toNat_lt; have hz' := z'.toNat_lt
      rw [u8_eq (by omega : x.toNat = x'.toNat), u8_eq (by omega : y.toNat = y'.toNat), u8_eq (by omega : z.toNat = z'.toNat), ih ht]

end Verif.Base64
