import Verif.Model.AddressMemory
import Verif.Lemmas.Memory
import Verif.Lemmas.AddressEncoder

/-! Facts about `AddressEncode` in memory. -/

namespace Verif.AddrMem
open Verif Verif.Addr Verif.Mem

variable (H : Hashes) (grow : Nat → Nat → Nat)

theorem encodePrefixed_text {h : Heap} {s : Slice} {a : AddressType} (v : Valid h s) (hs : s.arr < h.length) :
    (encodePrefixed H grow h s a).1 = Addr.encodePrefixed H (read h s) a := by
  unfold encodePrefixed Addr.encodePrefixed
  cases calcChecksum H (read h s) a.checksumType with
  | none => rfl
  | some c => simp only [read_append v hs, catData]; rfl

/-- The text is that of the bytes of the slice. -/
theorem addressEncode_text {h : Heap} {s : Slice} {a : AddressType} (v : Valid h s) (hs : s.arr < h.length) :
    (addressEncode H grow h s a).1 = Addr.addressEncode H (read h s) a := by
  unfold addressEncode Addr.addressEncode
  rw [read_length v]
  split
  · rfl
  split
  · rfl
  by_cases hn : s.len ≠ a.hashLen
  · rw [if_pos hn, if_pos hn]
    simp only [read_alloc]
    have e := encodePrefixed_text H grow (h := (alloc h (calcHash H (read h s) a.hashType)).2) (s := (alloc h (calcHash H (read h s) a.hashType)).1)
      (a := a) valid_alloc (by simp [alloc])
    rw [read_alloc] at e
    split
    · rfl
    split
    · rfl
    split
    · rfl
    split
    · rfl
    split
    · exact e
    split
    · exact e
    rfl
  · rw [if_neg hn, if_neg hn]
    have e := encodePrefixed_text H grow (h := h) (s := s) (a := a) v hs
    simp only
    split
    · rfl
    split
    · rfl
    split
    · rfl
    split
    · rfl
    split
    · exact e
    split
    · exact e
    rfl

/-- The memory after the call: what was there is unchanged, or four bytes have been appended to the argument. -/
theorem addressEncode_heap {h : Heap} {s : Slice} {a : AddressType} :
    (h.length ≤ (addressEncode H grow h s a).2.length ∧ ∀ i < h.length, array (addressEncode H grow h s a).2 i = array h i) ∨
    (s.len = a.hashLen ∧ (equalFold a.encodeType (asc "eos") = true ∨ equalFold a.encodeType (asc "aeternity") = true) ∧
      ∃ c, calcChecksum H (read h s) a.checksumType = some c ∧ (addressEncode H grow h s a).2 = (append grow h s c).2) := by
  unfold addressEncode
  split
  · exact Or.inl ⟨Nat.le_refl _, fun _ _ => rfl⟩
  split
  · exact Or.inl ⟨Nat.le_refl _, fun _ _ => rfl⟩
  by_cases hn : s.len ≠ a.hashLen
  · left
    rw [if_pos hn]
    have key : h.length ≤ (encodePrefixed H grow (alloc h (calcHash H (read h s) a.hashType)).2 (alloc h (calcHash H (read h s) a.hashType)).1 a).2.length ∧
        ∀ i < h.length, array (encodePrefixed H grow (alloc h (calcHash H (read h s) a.hashType)).2
          (alloc h (calcHash H (read h s) a.hashType)).1 a).2 i = array h i := by
      unfold encodePrefixed
      generalize calcHash H (read h s) a.hashType = b
      cases calcChecksum H (read (alloc h b).2 (alloc h b).1) a.checksumType with
      | none => exact ⟨by simp [alloc], fun i hi => by simp only [alloc]; exact array_append_old hi⟩
      | some c =>
        simp only [alloc]
        refine ⟨Nat.le_trans (by simp) append_length, fun i hi => ?_⟩
        unfold append
        split
        · simp only
          rw [array_write (by simp), if_neg (by omega)]
          exact array_append_old hi
        · simp only
          rw [array_append_old (by simp; omega)]
          exact array_append_old hi
    have base : h.length ≤ (alloc h (calcHash H (read h s) a.hashType)).2.length ∧
        ∀ i < h.length, array (alloc h (calcHash H (read h s) a.hashType)).2 i = array h i :=
      ⟨by simp [alloc], fun i hi => by simp only [alloc]; exact array_append_old hi⟩
    simp only
    split
    · exact base
    split
    · exact base
    split
    · exact base
    split
    · exact base
    split
    · exact key
    split
    · exact key
    exact base
  · have e : s.len = a.hashLen := by omega
    rw [if_neg hn]
    have key : (h.length ≤ (encodePrefixed H grow h s a).2.length ∧ ∀ i < h.length, array (encodePrefixed H grow h s a).2 i = array h i) ∨
        ∃ c, calcChecksum H (read h s) a.checksumType = some c ∧ (encodePrefixed H grow h s a).2 = (append grow h s c).2 := by
      unfold encodePrefixed
      cases hc : calcChecksum H (read h s) a.checksumType with
      | none => exact Or.inl ⟨Nat.le_refl _, fun _ _ => rfl⟩
      | some c => exact Or.inr ⟨c, rfl, rfl⟩
    simp only
    split
    · exact Or.inl ⟨Nat.le_refl _, fun _ _ => rfl⟩
    split
    · exact Or.inl ⟨Nat.le_refl _, fun _ _ => rfl⟩
    split
    · exact Or.inl ⟨Nat.le_refl _, fun _ _ => rfl⟩
    split
    · exact Or.inl ⟨Nat.le_refl _, fun _ _ => rfl⟩
    split
    · rename_i hf
      exact key.imp id fun k => ⟨e, Or.inl hf, k⟩
    split
    · rename_i hf
      exact key.imp id fun k => ⟨e, Or.inr hf, k⟩
    exact Or.inl ⟨Nat.le_refl _, fun _ _ => rfl⟩

/-- For the EOS and aeternity profiles and a payload of full length the checksum is appended to the argument. -/
theorem addressEncode_prefixed {h : Heap} {s : Slice} {a : AddressType} (ha : a = EOS_mainnetPublic ∨ a = AE_mainnetAddress) (hl : s.len = a.hashLen) :
    ∃ c, calcChecksum H (read h s) a.checksumType = some c ∧ c.length = 4 ∧ (addressEncode H grow h s a).2 = (append grow h s c).2 := by
  have hk : Spec.KnownRule a.checksumType := by rcases ha with rfl | rfl <;> decide +kernel
  obtain ⟨c, hc⟩ := calcChecksum_known H hk (read h s)
  refine ⟨c, hc, calcChecksum_length H hc, ?_⟩
  have hp : (encodePrefixed H grow h s a).2 = (append grow h s c).2 := by unfold encodePrefixed; rw [hc]
  have ht : addressEncode H grow h s a = encodePrefixed H grow h s a := by
    unfold addressEncode
    rw [if_neg (by rcases ha with rfl | rfl <;> decide +kernel), if_neg (by rcases ha with rfl | rfl <;> decide +kernel), if_neg (by omega)]
    simp only
    rw [if_neg (by rcases ha with rfl | rfl <;> decide +kernel), if_neg (by rcases ha with rfl | rfl <;> decide +kernel),
      if_neg (by rcases ha with rfl | rfl <;> decide +kernel), if_neg (by rcases ha with rfl | rfl <;> decide +kernel)]
    rcases ha with rfl | rfl
    · rw [if_pos (by decide +kernel)]
    · rw [if_neg (by decide +kernel), if_pos (by decide +kernel)]
  rw [ht, hp]

end Verif.AddrMem
