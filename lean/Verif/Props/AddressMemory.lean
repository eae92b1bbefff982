import Verif.Lemmas.AddressMemory
import Verif.Props.Address

/-! C124: `AddressEncode` and the memory of its caller. -/

namespace Verif
open Verif.Spec Verif.Addr Verif.Mem

/-! ## C124 -/

/-- C124: whatever the memory looks like, the text is the address of the bytes that the argument has at the time of the call. -/
theorem C124_text (H : Hashes) (grow : Nat → Nat → Nat) (h : Heap) (s : Slice) (a : AddressType) (v : Valid h s) (hs : s.arr < h.length) :
    (AddrMem.addressEncode H grow h s a).1 = addressEncode H (read h s) a := AddrMem.addressEncode_text H grow v hs

/-- C124, address types other than the EOS and aeternity ones, and also those when the argument has not the length of a payload (it is then hashed) or
has no room for four bytes behind it: no array of the caller is changed. -/
theorem C124_memory_partial (H : Hashes) (grow : Nat → Nat → Nat) (h : Heap) (s : Slice) (a : AddressType)
    (hc : (equalFold a.encodeType (asc "eos") = false ∧ equalFold a.encodeType (asc "aeternity") = false) ∨ s.len ≠ a.hashLen ∨ s.cap < s.len + 4) :
    ∀ i < h.length, (AddrMem.addressEncode H grow h s a).2[i]? = h[i]? := by
  have conv : ∀ (g : Heap) (_ : h.length ≤ g.length), (∀ i < h.length, array g i = array h i) → ∀ i < h.length, g[i]? = h[i]? := by
    intro g hg e i hi
    have := e i hi
    unfold array at this
    rw [List.getD_eq_getElem?_getD, List.getD_eq_getElem?_getD] at this
    rw [List.getElem?_eq_getElem (by omega : i < g.length), List.getElem?_eq_getElem hi] at this ⊢
    simpa using this
  rcases AddrMem.addressEncode_heap H grow (h := h) (s := s) (a := a) with ⟨h1, h2⟩ | ⟨h1, h2, c, h3, h4⟩
  · exact conv _ h1 h2
  · have hl := calcChecksum_length H h3
    have hcap : s.cap < s.len + 4 := by
      rcases hc with hc | hc | hc
      · rw [hc.1, hc.2] at h2; simp at h2
      · exact absurd h1 hc
      · exact hc
    rw [h4]
    intro i hi
    unfold append
    rw [if_neg (by omega)]
    simp only
    rw [List.getElem?_append_left hi]

/-- C124, the profiles of the table: all but `EOS_mainnetPublic` and `AE_mainnetAddress` leave the caller's memory unchanged. -/
theorem C124_profiles_partial (H : Hashes) (grow : Nat → Nat → Nat) (h : Heap) (s : Slice) (a : AddressType) (ha : a ∈ profiles)
    (h1 : a ≠ EOS_mainnetPublic) (h2 : a ≠ AE_mainnetAddress) :
    ∀ i < h.length, (AddrMem.addressEncode H grow h s a).2[i]? = h[i]? := by
  have table : ∀ a ∈ profiles, (equalFold a.encodeType (asc "eos") = true → a = EOS_mainnetPublic) ∧
      (equalFold a.encodeType (asc "aeternity") = true → a = AE_mainnetAddress) := by decide +kernel
  obtain ⟨t1, t2⟩ := table a ha
  apply C124_memory_partial
  left
  refine ⟨?_, ?_⟩
  · cases e : equalFold a.encodeType (asc "eos") with
    | false => rfl
    | true => exact absurd (t1 e) h1
  · cases e : equalFold a.encodeType (asc "aeternity") with
    | false => rfl
    | true => exact absurd (t2 e) h2

/-- C124 fails for EOS public keys and aeternity accounts: if the argument has room for four bytes behind it, these four bytes of the caller's array are
overwritten with the checksum (and nothing else is). -/
theorem C124_spare_violated (H : Hashes) (grow : Nat → Nat → Nat) (h : Heap) (s : Slice) (a : AddressType) (hs : s.arr < h.length)
    (ha : a = EOS_mainnetPublic ∨ a = AE_mainnetAddress) (hl : s.len = a.hashLen) (hc : s.len + 4 ≤ s.cap) :
    ∃ c, IsChecksum H a.checksumType (read h s) c ∧ c.length = 4 ∧ ∀ i, (AddrMem.addressEncode H grow h s a).2.getD i [] =
      if i = s.arr then (h.getD i []).take (s.off + s.len) ++ c ++ (h.getD i []).drop (s.off + s.len + 4) else h.getD i [] := by
  obtain ⟨c, h1, h2, h3⟩ := AddrMem.addressEncode_prefixed H grow ha hl (h := h)
  refine ⟨c, (calcChecksum_iff H _ _ _).mp h1, h2, fun i => ?_⟩
  rw [h3]
  unfold append
  rw [if_pos (by omega)]
  have := array_write (h := h) (p := s.off + s.len) (d := c) hs i
  unfold array at this
  simp only
  rw [this]
  split
  · rename_i e
    rw [e]
    unfold patch
    rw [h2]
  · rfl

/-- C124 fails for two keys that lie one behind the other in one array: encoding the first one makes `AddressEncode` return a wrong address for the
second, unless the second happens to begin with the checksum of the first. -/
theorem C124_neighbour_violated (H : Hashes) (grow : Nat → Nat → Nat) (a : AddressType) (ha : a = EOS_mainnetPublic ∨ a = AE_mainnetAddress)
    (k1 k2 : Bytes) (l1 : k1.length = a.hashLen) (l2 : k2.length = a.hashLen) (hd : ∀ c, IsChecksum H a.checksumType k1 c → c ≠ k2.take 4) :
    let n := a.hashLen
    let first : Slice := ⟨0, 0, n, 2 * n⟩
    let second : Slice := ⟨0, n, n, n⟩
    let h : Heap := [k1 ++ k2]
    read h first = k1 ∧ read h second = k2 ∧
    (AddrMem.addressEncode H grow h second a).1 = addressEncode H k2 a ∧
    (AddrMem.addressEncode H grow (AddrMem.addressEncode H grow h first a).2 second a).1 ≠ addressEncode H k2 a := by
  intro n first second h
  have hn : n = a.hashLen := rfl
  have n4 : 4 ≤ n := by rw [hn]; rcases ha with rfl | rfl <;> decide +kernel
  have e0 : array h 0 = k1 ++ k2 := rfl
  have v1 : Valid h first := ⟨by simp only [first]; omega, by simp only [first, e0, List.length_append]; omega⟩
  have v2 : Valid h second := ⟨Nat.le_refl _, by simp only [second, e0, List.length_append]; omega⟩
  have r1 : read h first = k1 := by
    simp only [Mem.read, first, e0]; rw [List.drop_zero, hn, ← l1]; simp
  have r2 : read h second = k2 := by
    simp only [Mem.read, second, e0]; rw [hn, ← l1, List.drop_left, l1, ← l2, List.take_length]
  refine ⟨r1, r2, by rw [C124_text H grow h second a v2 (by simp [h, second]), r2], ?_⟩
  obtain ⟨c, h1, h2, h3⟩ := AddrMem.addressEncode_prefixed H grow ha (s := first) rfl (h := h)
  rw [r1] at h1
  have w : (AddrMem.addressEncode H grow h first a).2 = [k1 ++ (c ++ k2.drop 4)] := by
    rw [h3]
    unfold append
    rw [if_pos (by simp only [first]; omega)]
    simp only [write, first, h, List.modify_zero_cons, patch, Nat.zero_add]
    rw [h2, hn, ← l1, List.take_left, List.drop_append]
    simp
  rw [w]
  have r3 : read [k1 ++ (c ++ k2.drop 4)] second = c ++ k2.drop 4 := by
    simp only [Mem.read, second]
    have : array [k1 ++ (c ++ k2.drop 4)] 0 = k1 ++ (c ++ k2.drop 4) := rfl
    rw [this, hn, ← l1, List.drop_left, List.take_of_length_le]
    simp only [List.length_append, List.length_drop]; omega
  have v3 : Valid [k1 ++ (c ++ k2.drop 4)] second := by
    refine ⟨Nat.le_refl _, ?_⟩
    have : array [k1 ++ (c ++ k2.drop 4)] 0 = k1 ++ (c ++ k2.drop 4) := rfl
    simp only [second, this, List.length_append, List.length_drop]; omega
  rw [C124_text H grow _ second a v3 (by simp [second]), r3]
  have hmem : a ∈ profiles := by rcases ha with rfl | rfl <;> decide +kernel
  have hE : a.encodeType = asc "eos" ∨ a.encodeType = asc "aeternity" := by rcases ha with rfl | rfl <;> decide +kernel
  have l3 : (c ++ k2.drop 4).length = a.hashLen := by simp only [List.length_append, List.length_drop]; omega
  obtain ⟨t, _, _, _, x1, x2⟩ := C03_prefixed_roundtrip H a hmem hE (c ++ k2.drop 4) l3
  obtain ⟨t', _, _, _, y1, y2⟩ := C03_prefixed_roundtrip H a hmem hE k2 l2
  rw [x1, y1]
  intro e
  have e := Res.ok.inj e
  rw [e, y2] at x2
  have x3 : k2.take 4 = c := by
    rw [Res.ok.inj x2, List.take_append_of_le_length (by omega), List.take_of_length_le (by omega)]
  exact hd c ((calcChecksum_iff H _ _ _).mp h1) x3.symm

/-- The hypotheses of the theorems above are met: two different EOS keys in one array, with a hash function that gives zeros. -/
example : let H : Hashes := ⟨fun a _ => List.replicate a.size 0, by simp⟩
    Valid [List.replicate 33 2 ++ List.replicate 33 3] ⟨0, 0, 33, 66⟩ ∧ (33 : Nat) = EOS_mainnetPublic.hashLen ∧
    (∀ c, IsChecksum H EOS_mainnetPublic.checksumType (List.replicate 33 2) c → c ≠ (List.replicate 33 (3 : UInt8)).take 4) ∧
    (EOS_mainnetPublic ∈ profiles ∧ BTC_mainnetAddressP2PKH ∈ profiles ∧ BTC_mainnetAddressP2PKH ≠ EOS_mainnetPublic ∧
      BTC_mainnetAddressP2PKH ≠ AE_mainnetAddress) := by
  intro H
  refine ⟨⟨by decide, by decide⟩, by decide +kernel, ?_, by decide +kernel⟩
  intro c hc
  have := (calcChecksum_iff H _ _ _).mpr hc
  have e : calcChecksum H (List.replicate 33 2) EOS_mainnetPublic.checksumType = some [0, 0, 0, 0] := by decide +kernel
  rw [e] at this
  rw [← Option.some.inj this]
  decide

end Verif
