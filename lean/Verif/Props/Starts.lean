import Verif.Spec.Starts
import Verif.Props.Address

/-! C145: the first characters and the length of the texts of the Base58 profiles. -/

namespace Verif
open Verif.Spec Verif.Addr Verif.Spec.Starts

namespace Starts

theorem digits_div : ∀ (k N : Nat), Nat.digits 58 (N / 58 ^ k) = (Nat.digits 58 N).drop k
  | 0, N => by simp
  | k + 1, N => by
    rw [Nat.pow_succ, Nat.mul_comm, ← Nat.div_div_eq_div_mul, digits_div k (N / 58)]
    by_cases h : N = 0
    · subst h; simp
    · rw [Nat.digits_def' (by omega) (by omega : 0 < N), List.drop_succ_cons]

/-- The number a text stands for. -/
def val (alph s : Bytes) : Nat := Nat.ofDigits 58 (s.map (alph.idxOf ·)).reverse

/-- A non-empty text over the alphabet whose first symbol is not the first of the alphabet. -/
def good (alph s : Bytes) : Bool := s.all (fun c => decide (c ∈ alph)) && (match s with | [] => false | c :: _ => decide (alph.idxOf c ≠ 0))

theorem good_digits {alph s : Bytes} (hal : IsAlphabet alph) (h : good alph s = true) :
    Nat.digits 58 (val alph s) = (s.map (alph.idxOf ·)).reverse ∧ s.map some = (s.map (alph.idxOf ·)).map (fun d => alph[d]?) := by
  unfold good at h
  rw [Bool.and_eq_true, List.all_eq_true] at h
  obtain ⟨h1, h2⟩ := h
  have hm : ∀ c ∈ s, c ∈ alph := fun c hc => by simpa using h1 c hc
  constructor
  · apply Nat.digits_ofDigits _ (by omega)
    · intro l hl
      rw [List.mem_reverse, List.mem_map] at hl
      obtain ⟨c, hc, rfl⟩ := hl
      rw [← hal.length]
      exact List.idxOf_lt_length_of_mem (hm c hc)
    · intro hne
      cases s with
      | nil => cases h2
      | cons c r =>
        have h2' : alph.idxOf c ≠ 0 := by simpa using h2
        rw [List.getLast_reverse]
        simpa using h2'
  · rw [List.map_map]
    apply List.map_congr_left
    intro c hc
    have hlt := List.idxOf_lt_length_of_mem (hm c hc)
    simp only [Function.comp_apply]
    rw [List.getElem?_eq_getElem hlt, List.getElem_idxOf hlt]

/-- If the number of a byte string without leading zeros has the digits of `s` in front of `k` more, its text starts with `s`. -/
theorem starts_of {alph b t s : Bytes} {k : Nat} (hal : IsAlphabet alph) (hs : good alph s = true) (hz : leadingZeros b = 0) (h1 : val alph s * 58 ^ k ≤ beNat b)
    (h2 : beNat b < (val alph s + 1) * 58 ^ k) (h : IsBase58 alph b t) : s <+: t ∧ t.length = s.length + k := by
  obtain ⟨d1, d2⟩ := good_digits hal hs
  have hq : beNat b / 58 ^ k = val alph s := by
    apply Nat.div_eq_of_lt_le
    · exact h1
    · exact h2
  have hd := digits_div k (beNat b)
  rw [hq, d1] at hd
  have hsne : s ≠ [] := by rintro rfl; cases hs
  have hk : k ≤ (Nat.digits 58 (beNat b)).length := by
    by_contra hc
    rw [List.drop_eq_nil_of_le (by omega)] at hd
    simp at hd
    exact hsne hd
  have hsp : (Nat.digits 58 (beNat b)).reverse = s.map (alph.idxOf ·) ++ ((Nat.digits 58 (beNat b)).take k).reverse := by
    conv_lhs => rw [← List.take_append_drop k (Nat.digits 58 (beNat b)), List.reverse_append, ← hd, List.reverse_reverse]
  unfold IsBase58 base58Digits at h
  rw [hz, hsp] at h
  simp only [List.replicate_zero, List.nil_append, List.map_append] at h
  rw [← d2] at h
  have hlen := congrArg List.length h
  simp only [List.length_map, List.length_append, List.length_reverse, List.length_take, Nat.min_eq_left hk] at hlen
  refine ⟨?_, hlen⟩
  have e : (t.take s.length).map some = s.map some := by
    rw [List.map_take, h, List.take_left' (by simp)]
  have := (List.map_injective_iff.mpr (Option.some_injective UInt8)) e
  rw [← this]
  exact List.take_prefix _ _

/-- The interval of the numbers of a profile with a non-zero version is covered by those starting with one of the texts. -/
def covers (alph : Bytes) (lo hi len : Nat) : List Bytes → Bool
  | [s] => decide (s.length ≤ len ∧ val alph s * 58 ^ (len - s.length) ≤ lo ∧ hi ≤ (val alph s + 1) * 58 ^ (len - s.length))
  | [s, s'] => decide (s.length ≤ len ∧ s.length = s'.length ∧ val alph s' = val alph s + 1 ∧ val alph s * 58 ^ (len - s.length) ≤ lo ∧ hi ≤ (val alph s' + 1) * 58 ^ (len - s.length))
  | _ => false

theorem covers_spec {alph : Bytes} {lo hi len : Nat} {ss : List Bytes} (h : covers alph lo hi len ss = true) {N : Nat} (h1 : lo ≤ N) (h2 : N < hi) :
    ∃ s ∈ ss, s.length ≤ len ∧ val alph s * 58 ^ (len - s.length) ≤ N ∧ N < (val alph s + 1) * 58 ^ (len - s.length) := by
  match ss, h with
  | [s], h =>
    have h : s.length ≤ len ∧ _ ∧ _ := of_decide_eq_true h
    exact ⟨s, by simp, h.1, by omega, by omega⟩
  | [s, s'], h =>
    have h : s.length ≤ len ∧ _ ∧ _ ∧ _ ∧ _ := of_decide_eq_true h
    obtain ⟨a1, a2, a3, a4, a5⟩ := h
    by_cases c : N < (val alph s + 1) * 58 ^ (len - s.length)
    · exact ⟨s, by simp, a1, by omega, c⟩
    · exact ⟨s', by simp, by omega, by rw [← a2, a3]; omega, by rw [← a2]; omega⟩

/-- The checks of one entry. -/
def entry (a : AddressType) (ss : List Bytes) (len : Nat) : Bool :=
  decide (a.encodeType = asc "base58") && decide (a.alphabet.length = 58) && decide a.alphabet.Nodup && decide (KnownRule a.checksumType) &&
  (match a.pre.getD [] with | [] => false | x :: _ => decide (x ≠ 0)) && ss.all (good a.alphabet) &&
  covers a.alphabet (beNat (a.pre.getD []) * 256 ^ (a.hashLen + (a.suf.getD []).length + 4)) ((beNat (a.pre.getD []) + 1) * 256 ^ (a.hashLen + (a.suf.getD []).length + 4)) len ss

theorem no_zeros {b : Bytes} {x : UInt8} {r : Bytes} (h : b = x :: r) (hx : x ≠ 0) : leadingZeros b = 0 := by
  subst h
  unfold leadingZeros
  rw [List.takeWhile_cons_of_neg (by simpa using hx)]
  rfl

theorem entry_parts {a : AddressType} {ss : List Bytes} {len : Nat} (h : entry a ss len = true) :
    a.encodeType = asc "base58" ∧ IsAlphabet a.alphabet ∧ KnownRule a.checksumType ∧ (∃ x r, a.pre.getD [] = x :: r ∧ x ≠ 0) ∧ (∀ s ∈ ss, good a.alphabet s = true) ∧
    covers a.alphabet (beNat (a.pre.getD []) * 256 ^ (a.hashLen + (a.suf.getD []).length + 4)) ((beNat (a.pre.getD []) + 1) * 256 ^ (a.hashLen + (a.suf.getD []).length + 4)) len ss = true := by
  unfold entry at h
  simp only [Bool.and_eq_true, decide_eq_true_eq, List.all_eq_true] at h
  obtain ⟨⟨⟨⟨⟨⟨h1, h2⟩, h3⟩, h4⟩, h5⟩, h6⟩, h7⟩ := h
  refine ⟨h1, ⟨h2, h3⟩, h4, ?_, h6, h7⟩
  cases hp : a.pre.getD [] with
  | nil => rw [hp] at h5; cases h5
  | cons x r => rw [hp] at h5; exact ⟨x, r, rfl, by simpa using h5⟩

/-- The text of a payload. -/
theorem text (H : Hashes) {a : AddressType} (hE : a.encodeType = asc "base58") (hal : IsAlphabet a.alphabet) (hk : KnownRule a.checksumType) (p : Bytes) (hp : p.length = a.hashLen) :
    ∃ t c, c.length = 4 ∧ addressEncode H p a = .ok t ∧ IsBase58 a.alphabet (a.pre.getD [] ++ (p ++ a.suf.getD [] ++ c)) t := by
  obtain ⟨c, hc⟩ := calcChecksum_known H hk (a.pre.getD [] ++ p ++ a.suf.getD [])
  obtain ⟨t, e1, e2, _⟩ := C01_base58_roundtrip a.alphabet hal (a.pre.getD [] ++ p ++ a.suf.getD [] ++ c)
  refine ⟨t, c, calcChecksum_length H hc, ?_, ?_⟩
  · rw [encode_base58 H hE p hp hc, e1]
  · simpa using e2

theorem covered (H : Hashes) {a : AddressType} {ss : List Bytes} {len : Nat} (h : entry a ss len = true) (p : Bytes) (hp : p.length = a.hashLen) :
    ∃ t, addressEncode H p a = .ok t ∧ t.length = len ∧ ∃ s ∈ ss, s <+: t := by
  obtain ⟨h1, h2, h3, ⟨x, r, h4, h5⟩, h6, h7⟩ := entry_parts h
  obtain ⟨t, c, hc, he, ht⟩ := text H h1 h2 h3 p hp
  have hN := beNat_append (a.pre.getD []) (p ++ a.suf.getD [] ++ c)
  have hl : (p ++ a.suf.getD [] ++ c).length = a.hashLen + (a.suf.getD []).length + 4 := by simp [hp, hc]; omega
  have hlt := beNat_lt (p ++ a.suf.getD [] ++ c)
  rw [hl] at hN hlt
  obtain ⟨s, hs, k1, k2, k3⟩ := covers_spec h7 (N := beNat (a.pre.getD [] ++ (p ++ a.suf.getD [] ++ c))) (by omega) (by rw [hN, Nat.add_mul]; omega)
  obtain ⟨q1, q2⟩ := starts_of h2 (h6 s hs) (no_zeros (b := a.pre.getD [] ++ (p ++ a.suf.getD [] ++ c)) (by rw [h4]; rfl) h5) k2 k3 ht
  exact ⟨t, he, by omega, s, hs, q1⟩

/-- The payload `p` gives a text starting with `s` whatever the checksum. -/
def reached (a : AddressType) (len : Nat) (s p : Bytes) : Bool :=
  decide (p.length = a.hashLen ∧ s.length ≤ len ∧ val a.alphabet s * 58 ^ (len - s.length) ≤ beNat (a.pre.getD [] ++ p ++ a.suf.getD []) * 256 ^ 4 ∧
    (beNat (a.pre.getD [] ++ p ++ a.suf.getD []) + 1) * 256 ^ 4 ≤ (val a.alphabet s + 1) * 58 ^ (len - s.length))

theorem reached_spec (H : Hashes) {a : AddressType} {ss : List Bytes} {len : Nat} (h : entry a ss len = true) {s p : Bytes} (hs : s ∈ ss) (hr : reached a len s p = true) :
    p.length = a.hashLen ∧ ∃ t, addressEncode H p a = .ok t ∧ s <+: t := by
  obtain ⟨h1, h2, h3, ⟨x, r, h4, h5⟩, h6, h7⟩ := entry_parts h
  obtain ⟨r1, r2, r3, r4⟩ := of_decide_eq_true hr
  obtain ⟨t, c, hc, he, ht⟩ := text H h1 h2 h3 p r1
  have e : a.pre.getD [] ++ (p ++ a.suf.getD [] ++ c) = (a.pre.getD [] ++ p ++ a.suf.getD []) ++ c := by simp
  rw [e] at ht
  have hN := beNat_append (a.pre.getD [] ++ p ++ a.suf.getD []) c
  have hlt := beNat_lt c
  rw [hc] at hN hlt
  obtain ⟨q1, q2⟩ := starts_of h2 (h6 s hs) (no_zeros (b := (a.pre.getD [] ++ p ++ a.suf.getD []) ++ c) (by rw [h4]; rfl) h5) (k := len - s.length) (by omega) (by rw [hN]; rw [Nat.add_mul] at r4; omega) ht
  exact ⟨r1, t, he, q1⟩

/-- Data of any length under a profile of 20 bytes: they are hashed first. -/
theorem hashed (H : Hashes) {a : AddressType} (hE : a.encodeType = asc "base58") (hh : (∀ x, (calcHash H x a.hashType).length = a.hashLen)) (x : Bytes) :
    ∃ p, p.length = a.hashLen ∧ addressEncode H x a = addressEncode H p a := by
  by_cases c : x.length = a.hashLen
  · exact ⟨x, c, rfl⟩
  · refine ⟨calcHash H x a.hashType, hh x, ?_⟩
    have n1 : ¬ a.encodeType = asc "bech32m" := by rw [hE]; decide
    have n2 : ¬ a.encodeType = asc "bech32" := by rw [hE]; decide
    unfold addressEncode
    simp only [if_neg n1, if_neg n2, hh x, c, ne_eq, not_true, not_false_iff, if_true, if_false]

/-- The hash rules with 20 bytes. -/
def hash20 (a : AddressType) : Bool := decide (a.hashLen = 20 ∧ a.hashType ∈ [asc "h160", asc "blake2b160", asc "ripemd160", asc "sha3_256_ripemd160", asc "keccak256_last_twenty", asc "blake2b_and_keccak256_first_twenty"])

theorem hash20_spec (H : Hashes) {a : AddressType} (h : hash20 a = true) (x : Bytes) : (calcHash H x a.hashType).length = a.hashLen := by
  obtain ⟨h1, h2⟩ := of_decide_eq_true h
  rw [h1]
  simp only [List.mem_cons, List.not_mem_nil, or_false] at h2
  rcases h2 with h | h | h | h | h | h <;> rw [h]
  · exact H.size .hash160 x
  · exact H.size (.blake2b 20) x
  · exact H.size .ripemd160 x
  · exact H.size .sha3_256Ripemd160 x
  · show ((H.hash .keccak256 x).drop 12).length = 20
    simp [H.size, Alg.size]
  · show ((H.hash .keccak256 (H.hash (.blake2b 32) x)).take 20).length = 20
    simp [H.size, Alg.size]

theorem table_ok : ∀ e ∈ documented, entry e.1 e.2.1 e.2.2 = true := by decide +kernel

theorem never_ok : ∀ e ∈ never, entry e.1 [e.2.2.1] e.2.2.2 = true ∧ e.2.1.length ≤ e.2.2.1.length ∧ ¬ e.2.1 <+: e.2.2.1 := by decide +kernel

theorem both_ok : ∀ e ∈ sometimes, (entry e.1 [e.2.1, e.2.2.1] e.2.2.2 = true ∨ entry e.1 [e.2.2.1, e.2.1] e.2.2.2 = true) ∧ e.2.1.length = e.2.2.1.length ∧ e.2.1 ≠ e.2.2.1 := by decide +kernel

theorem table_reached : ∀ e ∈ documented, ∀ s ∈ e.2.1, reached e.1 e.2.2 s (List.replicate e.1.hashLen 0) = true ∨ reached e.1 e.2.2 s (List.replicate e.1.hashLen 0xff) = true := by decide +kernel

theorem both_reached : ∀ e ∈ sometimes, (reached e.1 e.2.2.2 e.2.1 (List.replicate e.1.hashLen 0) = true ∧ reached e.1 e.2.2.2 e.2.2.1 (List.replicate e.1.hashLen 0xff) = true) ∨
    (reached e.1 e.2.2.2 e.2.2.1 (List.replicate e.1.hashLen 0) = true ∧ reached e.1 e.2.2.2 e.2.1 (List.replicate e.1.hashLen 0xff) = true) := by decide +kernel

theorem zero_ok : ∀ e ∈ zeroVersion, e.1.encodeType = asc "base58" ∧ e.1.alphabet.length = 58 ∧ e.1.alphabet.Nodup ∧ KnownRule e.1.checksumType ∧ e.1.pre = some [0] ∧ e.1.suf = none ∧ e.1.hashLen = 20 ∧
    e.2 = e.1.alphabet.take 1 := by decide +kernel

theorem all_listed : ∀ a ∈ profiles, a.encodeType = asc "base58" → a ∈ documented.map (·.1) ∨ a ∈ zeroVersion.map (·.1) ∨ a ∈ never.map (·.1) ∨ a ∈ sometimes.map (·.1) := by decide +kernel

theorem monero_ok : ∀ e ∈ monero, e.1 ∈ profiles ∧ e.1.encodeType = asc "XMR" ∧
    ((∀ s ∈ e.2, good e.1.alphabet s = true) ∧ covers e.1.alphabet (beNat (e.1.pre.getD []) * 256 ^ 7) ((beNat (e.1.pre.getD []) + 1) * 256 ^ 7) 11 e.2 = true) ∧ e.1.pre.getD [] ≠ [0] := by decide +kernel

theorem all_listed' : ∀ a ∈ profiles, a.encodeType ≠ asc "base58" → a ∈ fronted.map (·.1) ∨ a ∈ monero.map (·.1) ∨ a = ETH_mainnetPublicAddress ∨ a = XCH_mainnetAddress := by decide +kernel

theorem hash_ok : ∀ e ∈ documented, e.1.hashLen = 20 → hash20 e.1 = true := by decide +kernel
theorem hash_ok' : (∀ e ∈ never, e.1.hashLen = 20 → hash20 e.1 = true) ∧ (∀ e ∈ zeroVersion, hash20 e.1 = true) ∧ (∀ e ∈ sometimes, hash20 e.1 = true) := by decide +kernel

end Starts
open Starts

/-- C145: under the profiles of the list, a payload of the profile's length, or anything (a public key) if that length is 20, gives a text that starts with characters documented for the profile and has
the documented length. The list has all Base58 profiles of the library except those with version 0 (`C145_zero`), those for which it is false (`C145_never_violated`, `C145_sometimes_violated`), and no others (`C145_listed`). -/
theorem C145_starts_partial (H : Hashes) (a : AddressType) (ss : List Bytes) (len : Nat) (ha : (a, ss, len) ∈ documented) (data : Bytes) (hd : data.length = a.hashLen ∨ a.hashLen = 20) :
    ∃ t, addressEncode H data a = .ok t ∧ t.length = len ∧ ∃ s ∈ ss, s <+: t := by
  have he : entry a ss len = true := table_ok _ ha
  obtain ⟨p, hp, e⟩ : ∃ p, p.length = a.hashLen ∧ addressEncode H data a = addressEncode H p a := by
    rcases hd with h | h
    · exact ⟨data, h, rfl⟩
    · exact hashed H (entry_parts he).1 (hash20_spec H (hash_ok _ ha h)) data
  rw [e]
  exact covered H he p hp

/-- All of the documented starts occur. -/
theorem C145_occur (H : Hashes) (a : AddressType) (ss : List Bytes) (len : Nat) (ha : (a, ss, len) ∈ documented) (s : Bytes) (hs : s ∈ ss) :
    ∃ p, p.length = a.hashLen ∧ ∃ t, addressEncode H p a = .ok t ∧ s <+: t := by
  rcases table_reached _ ha s hs with h | h
  · exact ⟨_, reached_spec H (table_ok _ ha) hs h⟩
  · exact ⟨_, reached_spec H (table_ok _ ha) hs h⟩

/-- C145 for the addresses with version 0 (Bitcoin, Bitcoin Cash, Bitcoin SV: "1", Ripple: "r"): 25 to 34 characters, the first one as said. -/
theorem C145_zero (H : Hashes) (a : AddressType) (s : Bytes) (ha : (a, s) ∈ zeroVersion) (data : Bytes) :
    ∃ t, addressEncode H data a = .ok t ∧ 25 ≤ t.length ∧ t.length ≤ 34 ∧ s <+: t := by
  obtain ⟨h1, h2, h3, h4, h5, h6, h7, h8⟩ := zero_ok _ ha
  dsimp only at h1 h2 h3 h4 h5 h6 h7 h8
  obtain ⟨p, hp, e⟩ := hashed H h1 (hash20_spec H (hash_ok'.2.1 _ ha)) data
  obtain ⟨t, c, hc, he, ht⟩ := text H h1 ⟨h2, h3⟩ h4 p hp
  rw [h7] at hp
  rw [h5, h6] at ht
  simp only [Option.getD_some, Option.getD_none, List.append_nil, List.cons_append, List.nil_append] at ht
  refine ⟨t, e.trans he, ?_⟩
  generalize hb : p ++ c = b at ht
  have hbl : b.length = 24 := by rw [← hb]; simp [hp, hc]
  have hz : leadingZeros (0 :: b) = leadingZeros b + 1 := by
    unfold leadingZeros; rw [List.takeWhile_cons_of_pos (by simp)]; rfl
  have hN : beNat (0 :: b) = beNat b := by rw [beNat_cons]; simp
  have hzle : leadingZeros b ≤ 24 := by rw [← hbl]; unfold leadingZeros; exact (List.takeWhile_sublist _).length_le
  have hlen : t.length = leadingZeros b + 1 + (Nat.digits 58 (beNat b)).length := by
    have := congrArg List.length ht
    simpa [base58Digits, hz, hN] using this
  have hsplit : beNat b = beNat (b.drop (leadingZeros b)) := by
    have e1 : b.take (leadingZeros b) = List.replicate (leadingZeros b) 0 := by
      unfold leadingZeros
      generalize b = l
      induction l with
      | nil => rfl
      | cons x r ih =>
        by_cases hx : x = 0
        · subst hx
          rw [List.takeWhile_cons_of_pos (by simp)]
          simp only [List.length_cons, List.take_succ_cons, List.replicate_succ, ih]
        · rw [List.takeWhile_cons_of_neg (by simpa using hx)]; rfl
    conv_lhs => rw [← List.take_append_drop (leadingZeros b) b, e1]
    rw [beNat_append]
    have e0 : ∀ n, beNat (List.replicate n 0) = 0 := by
      intro n
      induction n with
      | zero => rfl
      | succ n ih => rw [List.replicate_succ, beNat_cons, ih]; simp
    rw [e0]; simp
  have hup : beNat b < 256 ^ (24 - leadingZeros b) := by
    rw [hsplit]
    have := beNat_lt (b.drop (leadingZeros b))
    rw [List.length_drop, hbl] at this
    exact this
  have hlo : leadingZeros b < 24 → 256 ^ (23 - leadingZeros b) ≤ beNat b := by
    intro hlt
    rw [hsplit]
    obtain ⟨x, r, hx⟩ : ∃ x r, b.drop (leadingZeros b) = x :: r := by
      cases hd : b.drop (leadingZeros b) with
      | nil =>
        have := congrArg List.length hd
        simp [hbl] at this
        omega
      | cons x r => exact ⟨x, r, rfl⟩
    have hx0 : x ≠ 0 := by
      rintro rfl
      have : leadingZeros b < leadingZeros b := by
        have key : ∀ l : Bytes, ∀ r, l.drop (leadingZeros l) = (0 : UInt8) :: r → False := by
          intro l
          induction l with
          | nil => intro r h; simp at h
          | cons y l ih =>
            intro r h
            by_cases hy : y = 0
            · subst hy
              have : leadingZeros ((0 : UInt8) :: l) = leadingZeros l + 1 := by
                unfold leadingZeros; rw [List.takeWhile_cons_of_pos (by simp)]; rfl
              rw [this, List.drop_succ_cons] at h
              exact ih r h
            · rw [no_zeros rfl hy] at h
              simp only [List.drop_zero, List.cons.injEq] at h
              exact hy h.1
        exact (key b r hx).elim
      omega
    have hr : r.length = 23 - leadingZeros b := by
      have := congrArg List.length hx
      simp [hbl] at this
      omega
    rw [hx, beNat_cons, ← hr]
    have : 1 ≤ x.toNat := by
      by_contra hc
      exact hx0 (UInt8.toNat_inj.mp (by simp; omega))
    calc 256 ^ r.length = 1 * 256 ^ r.length := by rw [Nat.one_mul]
      _ ≤ x.toNat * 256 ^ r.length := Nat.mul_le_mul_right _ this
      _ ≤ _ := Nat.le_add_right _ _
  refine ⟨?_, ?_, ?_⟩
  · -- at least 25
    by_cases hall : leadingZeros b = 24
    · omega
    · have h1 := hlo (by omega)
      have : 23 - leadingZeros b < (Nat.digits 58 (beNat b)).length := by
        rw [Nat.lt_digits_length_iff (by omega)]
        refine le_trans ?_ h1
        exact Nat.pow_le_pow_left (by omega) _
      omega
  · have key : ∀ z ≤ 24, 256 ^ (24 - z) ≤ 58 ^ (33 - z) := by decide +kernel
    have : (Nat.digits 58 (beNat b)).length ≤ 33 - leadingZeros b := by
      rw [Nat.digits_length_le_iff (by omega)]
      exact lt_of_lt_of_le hup (key _ hzle)
    omega
  · rw [h8]
    cases t with
    | nil => rw [List.length_nil] at hlen; omega
    | cons y r =>
      have h0 : some y = a.alphabet[0]? := by
        have ht' := ht
        unfold IsBase58 base58Digits at ht'
        rw [hz, List.replicate_succ] at ht'
        simp only [List.map_cons, List.cons_append, List.cons.injEq] at ht'
        exact ht'.1
      cases hal : a.alphabet with
      | nil => rw [hal] at h0; cases h0
      | cons z w =>
        rw [hal] at h0
        cases h0
        exact ⟨r, rfl⟩

/-- C145 is false under these profiles: no payload at all gives a text with the documented start (the texts start with other characters, always the same). -/
theorem C145_never_violated (H : Hashes) (a : AddressType) (doc actual : Bytes) (len : Nat) (ha : (a, doc, actual, len) ∈ never) (data : Bytes) (hd : data.length = a.hashLen ∨ a.hashLen = 20) :
    ∃ t, addressEncode H data a = .ok t ∧ t.length = len ∧ actual <+: t ∧ ¬ doc <+: t := by
  obtain ⟨he, h1, h2⟩ := never_ok _ ha
  dsimp only at he h1 h2
  obtain ⟨p, hp, e⟩ : ∃ p, p.length = a.hashLen ∧ addressEncode H data a = addressEncode H p a := by
    rcases hd with h | h
    · exact ⟨data, h, rfl⟩
    · exact hashed H (entry_parts he).1 (hash20_spec H (hash_ok'.1 _ ha h)) data
  obtain ⟨t, k1, k2, s, hs, k3⟩ := covered H he p hp
  rw [List.mem_singleton] at hs
  subst hs
  exact ⟨t, e.trans k1, k2, k3, fun h => h2 (List.prefix_of_prefix_length_le h k3 h1)⟩

/-- C145 is false under three more profiles: the texts start with the documented characters or with others, and both occur. -/
theorem C145_sometimes_violated (H : Hashes) (a : AddressType) (doc other : Bytes) (len : Nat) (ha : (a, doc, other, len) ∈ sometimes) :
    (∀ data, ∃ t, addressEncode H data a = .ok t ∧ t.length = len ∧ (doc <+: t ∨ other <+: t)) ∧
    (∃ p, p.length = a.hashLen ∧ ∃ t, addressEncode H p a = .ok t ∧ doc <+: t) ∧
    ∃ p, p.length = a.hashLen ∧ ∃ t, addressEncode H p a = .ok t ∧ other <+: t ∧ ¬ doc <+: t := by
  obtain ⟨he, h1, h2⟩ := both_ok _ ha
  dsimp only at he h1 h2
  obtain ⟨ss, hss, he⟩ : ∃ ss, (ss = [doc, other] ∨ ss = [other, doc]) ∧ entry a ss len = true := by
    rcases he with h | h
    · exact ⟨_, .inl rfl, h⟩
    · exact ⟨_, .inr rfl, h⟩
  have m1 : doc ∈ ss := by rcases hss with h | h <;> simp [h]
  have m2 : other ∈ ss := by rcases hss with h | h <;> simp [h]
  refine ⟨fun data => ?_, ?_, ?_⟩
  · obtain ⟨p, hp, e⟩ := hashed H (entry_parts he).1 (hash20_spec H (hash_ok'.2.2 _ ha)) data
    obtain ⟨t, k1, k2, s, hs, k3⟩ := covered H he p hp
    refine ⟨t, e.trans k1, k2, ?_⟩
    rcases hss with h | h <;> rw [h] at hs <;> simp only [List.mem_cons, List.not_mem_nil, or_false] at hs <;> rcases hs with rfl | rfl
    · exact .inl k3
    · exact .inr k3
    · exact .inr k3
    · exact .inl k3
  · rcases both_reached _ ha with ⟨h, _⟩ | ⟨_, h⟩
    · exact ⟨_, reached_spec H he m1 h⟩
    · exact ⟨_, reached_spec H he m1 h⟩
  · have fin : ∀ p, reached a len other p = true → ∃ p, p.length = a.hashLen ∧ ∃ t, addressEncode H p a = .ok t ∧ other <+: t ∧ ¬ doc <+: t := by
      intro p h
      obtain ⟨k1, t, k2, k3⟩ := reached_spec H he m2 h
      exact ⟨p, k1, t, k2, k3, fun hd => h2 ((List.prefix_of_prefix_length_le hd k3 (by omega)).eq_of_length h1)⟩
    rcases both_reached _ ha with ⟨_, h⟩ | ⟨h, _⟩
    · exact fin _ h
    · exact fin _ h

/-- C145 for bech32 and cashaddr addresses, ICON, EOS and aeternity: whatever data are given, a text that is returned starts as listed. (There is one for all data of the profile's length: C03, C07, C08, C13.) -/
theorem C145_front (H : Hashes) (a : AddressType) (s : Bytes) (ha : (a, s) ∈ fronted) (data t : Bytes) (h : addressEncode H data a = .ok t) : s <+: t := by
  have b32 : ∀ (hrp alph pre data t : Bytes), Bech32.encode hrp alph data pre = .ok t → hrp ++ [0x31] <+: t := by
    intro hrp alph pre data t h
    unfold Bech32.encode at h
    dsimp only at h
    split at h
    · cases h; exact ⟨_, rfl⟩
    · cases h
  have b32q : ∀ (hrp data t : Bytes), Bech32.encode hrp bech32Std data [0] = .ok t → hrp ++ [0x31, 0x71] <+: t := by
    intro hrp data t h
    unfold Bech32.encode at h
    dsimp only at h
    split at h
    · rename_i cs hcs
      cases h
      simp only [List.map_cons, List.map_nil, List.cons_append, List.nil_append, Bech32.toChars] at hcs
      split at hcs
      · rename_i c cs' hc _
        cases hcs
        have : c = 0x71 := by
          have e : index bech32Std (UInt8.toNat 0) = .ok 0x71 := by decide +kernel
          rw [e] at hc; exact (Res.ok.inj hc).symm
        subst this
        exact ⟨cs', by simp⟩
      · cases hcs
    · cases h
  simp only [fronted, List.mem_cons, Prod.mk.injEq, List.not_mem_nil, or_false] at ha
  rcases ha with ⟨rfl, rfl⟩ | ⟨rfl, rfl⟩ | ⟨rfl, rfl⟩ | ⟨rfl, rfl⟩ | ⟨rfl, rfl⟩ | ⟨rfl, rfl⟩ | ⟨rfl, rfl⟩ | ⟨rfl, rfl⟩ | ⟨rfl, rfl⟩ | ⟨rfl, rfl⟩ | ⟨rfl, rfl⟩ | ⟨rfl, rfl⟩ | ⟨rfl, rfl⟩ | ⟨rfl, rfl⟩ | ⟨rfl, rfl⟩
  · rw [(bech32_unfold H rfl data t).1] at h; exact b32q _ _ _ h
  · rw [(bech32_unfold H rfl data t).1] at h; exact b32q _ _ _ h
  · rw [(bech32_unfold H rfl data t).1] at h; exact b32q _ _ _ h
  · rw [(bech32_unfold H rfl data t).1] at h; exact b32q _ _ _ h
  · rw [(bech32_unfold H rfl data t).1] at h; exact b32q _ _ _ h
  · rw [(bech32_unfold H rfl data t).1] at h; exact b32q _ _ _ h
  · rw [(bech32_unfold H rfl data t).1] at h; exact b32 _ _ _ _ _ h
  · rw [(bech32_unfold H rfl data t).1] at h; exact b32 _ _ _ _ _ h
  · rw [(bech32_unfold H rfl data t).1] at h; exact b32 _ _ _ _ _ h
  · rw [(bech32_unfold H rfl data t).1] at h; exact b32 _ _ _ _ _ h
  · rw [(bech32_unfold H rfl data t).1] at h; exact b32 _ _ _ _ _ h
  · have e : ∃ x, addressEncode H data BCH_mainnetAddressCash = CashAddr.encode (asc "bitcoincash") bech32Std x := ⟨_, rfl⟩
    obtain ⟨x, e⟩ := e
    rw [e] at h
    unfold CashAddr.encode at h
    obtain ⟨ext, _, h⟩ := Res.bind_eq_ok.mp h
    obtain ⟨cs, _, h⟩ := Res.bind_eq_ok.mp h
    cases h
    exact ⟨cs, rfl⟩
  · have e : ∃ x, addressEncode H data ICX_walletAddress = .ok (asc "hx" ++ Hex.encode x) := ⟨_, rfl⟩
    obtain ⟨x, e⟩ := e
    rw [e] at h
    cases h
    exact ⟨_, rfl⟩
  · have e : ∃ x, addressEncode H data EOS_mainnetPublic = encodePrefixed H x EOS_mainnetPublic := ⟨_, rfl⟩
    obtain ⟨x, e⟩ := e
    rw [e] at h
    unfold encodePrefixed at h
    obtain ⟨cs, _, h⟩ := Res.bind_eq_ok.mp h
    cases h
    exact ⟨_, rfl⟩
  · have e : ∃ x, addressEncode H data AE_mainnetAddress = encodePrefixed H x AE_mainnetAddress := ⟨_, rfl⟩
    obtain ⟨x, e⟩ := e
    rw [e] at h
    unfold encodePrefixed at h
    obtain ⟨cs, _, h⟩ := Res.bind_eq_ok.mp h
    cases h
    exact ⟨_, rfl⟩

/-- C145 for Monero: the addresses start as documented. -/
theorem C145_monero (H : Hashes) (a : AddressType) (ss : List Bytes) (ha : (a, ss) ∈ monero) (p : Bytes) (hp : p.length = a.hashLen) :
    ∃ t, addressEncode H p a = .ok t ∧ ∃ s ∈ ss, s <+: t := by
  obtain ⟨m1, m2, m3, m4⟩ := monero_ok _ ha
  dsimp only at m1 m2 m3 m4
  obtain ⟨h1, h2, h3, h4, h5⟩ := (profiles_other a m1).2.2.1 m2
  obtain ⟨t, ht, _, _⟩ := C03_monero_roundtrip H a m1 m2 p hp
  refine ⟨t, ht, ?_⟩
  have hif : (if p.length ≠ a.hashLen then calcHash H p a.hashType else p) = p := by simp [hp]
  have e : addressEncode H p a = xmrEncode H (if p.length ≠ a.hashLen then calcHash H p a.hashType else p) a := by
    unfold addressEncode; rw [m2]; rfl
  rw [e, hif, xmrEncode] at ht
  have c1 : ¬ (a.hashType = [] ∧ p.length ≠ 64) := by
    rcases h5 with ⟨h, h'⟩ | ⟨h, h'⟩
    · rw [hp, h']; simp
    · rw [h]; intro hh; exact absurd hh.1 (by decide)
  have c2 : ¬ (a.hashType = asc "payID" ∧ p.length ≠ 72) := by
    rcases h5 with ⟨h, h'⟩ | ⟨h, h'⟩
    · rw [h]; intro hh; exact absurd hh.1 (by decide)
    · rw [hp, h']; simp
  rw [if_neg c1, if_neg c2] at ht
  dsimp only at ht
  obtain ⟨x, hx⟩ : ∃ x, a.pre.getD [] = [x] := List.length_eq_one_iff.mp h3
  rw [hx] at ht m3 m4
  have hx0 : x ≠ 0 := by simpa using m4
  generalize hc : (H.hash .keccak256 ([x] ++ p)).take 4 = c at ht
  have hpl : 7 ≤ p.length := by rcases h5 with ⟨_, h⟩ | ⟨_, h⟩ <;> omega
  obtain ⟨n, hn⟩ : ∃ n, ([x] ++ p ++ c).length / 8 = n + 1 := ⟨([x] ++ p ++ c).length / 8 - 1, by simp; omega⟩
  rw [hn, xmrEncodeBlocks] at ht
  obtain ⟨t1, ht1, ht⟩ := Res.bind_eq_ok.mp ht
  obtain ⟨r, _, ht⟩ := Res.bind_eq_ok.mp ht
  cases ht
  have ht8 : ([x] ++ p ++ c).take 8 = [x] ++ p.take 7 := by
    rw [List.append_assoc, show 8 = [x].length + 7 from rfl, List.take_length_add_append, List.take_append_of_le_length hpl]
  have hal : IsAlphabet a.alphabet := by rw [h1]; exact btcAlphabet
  rw [ht8] at ht1
  have h58 := (encode_iff hal _ _).mp ht1
  have hl7 : (p.take 7).length = 7 := by simp; omega
  have hN := beNat_append [x] (p.take 7)
  have hlt := beNat_lt (p.take 7)
  rw [hl7] at hN hlt
  obtain ⟨s, hs, k1, k2, k3⟩ := covers_spec m3.2 (N := beNat ([x] ++ p.take 7)) (by omega) (by rw [hN, Nat.add_mul]; omega)
  obtain ⟨q1, q2⟩ := starts_of hal (m3.1 s hs) (no_zeros rfl hx0) k2 k3 h58
  refine ⟨s, hs, ?_⟩
  unfold padOnes
  rw [show 11 - t1.length = 0 by omega]
  exact q1.trans ⟨r, rfl⟩

/-- C145 for Chia. (That there is a text for every 32 bytes is C137.) -/
theorem C145_chia (H : Hashes) (data t : Bytes) (h : addressEncode H data XCH_mainnetAddress = .ok t) (hne : t ≠ []) : asc "xch1" <+: t := by
  have e : addressEncode H data XCH_mainnetAddress = (match Bech32m.bech32mEncode (asc "xch") data bech32Std with
    | .ok t => .ok t
    | .err => .ok []
    | .panic => .panic) := rfl
  rw [e] at h
  cases hb : Bech32m.bech32mEncode (asc "xch") data bech32Std with
  | err => rw [hb] at h; cases h; exact absurd rfl hne
  | panic => rw [hb] at h; cases h
  | ok t' =>
    rw [hb] at h
    cases h
    unfold Bech32m.bech32mEncode at hb
    obtain ⟨conv, _, hb⟩ := Res.bind_eq_ok.mp hb
    unfold Bech32m.encode at hb
    split at hb
    · cases hb; exact ⟨_, rfl⟩
    · cases hb

/-- Every profile of the library is in one of the lists, except the one of Ethereum, whose texts have no fixed start, and the one of Chia (`C145_chia`). -/
theorem C145_listed (a : AddressType) (ha : a ∈ profiles) (h1 : a ≠ ETH_mainnetPublicAddress) (h2 : a ≠ XCH_mainnetAddress) :
    a ∈ documented.map (·.1) ∨ a ∈ zeroVersion.map (·.1) ∨ a ∈ never.map (·.1) ∨ a ∈ sometimes.map (·.1) ∨ a ∈ fronted.map (·.1) ∨ a ∈ monero.map (·.1) := by
  by_cases h : a.encodeType = asc "base58"
  · rcases all_listed a ha h with h | h | h | h
    · exact .inl h
    · exact .inr (.inl h)
    · exact .inr (.inr (.inl h))
    · exact .inr (.inr (.inr (.inl h)))
  · rcases all_listed' a ha h with h | h | h | h
    · exact .inr (.inr (.inr (.inr (.inl h))))
    · exact .inr (.inr (.inr (.inr (.inr h))))
    · exact absurd h h1
    · exact absurd h h2

/-- Every extended public key of Bitcoin's main network starts with "xpub". -/
example (H : Hashes) (key : Bytes) (h : key.length = 74) : ∃ t, addressEncode H key BTC_mainnetPublicBIP32 = .ok t ∧ t.length = 111 ∧ asc "xpub" <+: t := by
  obtain ⟨t, h1, h2, s, hs, h3⟩ := C145_starts_partial H BTC_mainnetPublicBIP32 [asc "xpub"] 111 (by decide +kernel) key (.inl h)
  rw [List.mem_singleton] at hs
  exact ⟨t, h1, h2, hs ▸ h3⟩

/-- No 64-byte Ed25519 private key of Tezos gets the text "edsk...". -/
example (H : Hashes) (key : Bytes) (h : key.length = 64) : ∃ t, addressEncode H key XTZ_mainnetPrivate_edsk = .ok t ∧ t.length = 98 ∧ asc "CBT4" <+: t ∧ ¬ asc "edsk" <+: t :=
  C145_never_violated H _ _ _ _ (by decide +kernel) key (.inl h)

/-! ## C146 -/

namespace Starts

/-- What decides about acceptance under a Base58 profile. -/
def form (a : AddressType) : Option Bytes × Option Bytes × Nat × Bytes := (a.pre, a.suf, a.hashLen, a.checksumType)

theorem forms : ∀ a ∈ profiles, a.encodeType = asc "base58" → ∀ b ∈ profiles, b.encodeType = asc "base58" →
    (a.pre.getD []).length + a.hashLen + (a.suf.getD []).length = (b.pre.getD []).length + b.hashLen + (b.suf.getD []).length →
    (a.pre.getD []).isPrefixOf (b.pre.getD []) = true → form a = form b := by decide +kernel

end Starts

/-- C146: a text that is accepted under one Base58 profile of the library is rejected under every other with the same alphabet (that is, all but Ripple's), unless the two have the same version bytes,
suffix, payload length and checksum. Missing: those, see `C146_shared_violated`. -/
theorem C146_other_partial (H : Hashes) (a b : AddressType) (ha : a ∈ profiles) (hb : b ∈ profiles) (hEa : a.encodeType = asc "base58") (hEb : b.encodeType = asc "base58") (hab : a.alphabet = b.alphabet)
    (hd : ¬ (a.pre = b.pre ∧ a.suf = b.suf ∧ a.hashLen = b.hashLen ∧ a.checksumType = b.checksumType)) (t p : Bytes) (h : addressDecode H t a = .ok p) (q : Bytes) :
    addressDecode H t b ≠ .ok q := by
  intro h'
  obtain ⟨a1, a2, a3, _⟩ := profiles_base58 a ha hEa
  obtain ⟨b1, b2, b3, _⟩ := profiles_base58 b hb hEb
  have hal : IsAlphabet a.alphabet := ⟨a1, a2⟩
  obtain ⟨hp, c, hc, he⟩ := (decode_base58_iff H hEa hal t p).mp h
  obtain ⟨hq, c', hc', he'⟩ := (decode_base58_iff H hEb ⟨b1, b2⟩ t q).mp h'
  rw [← hab] at he'
  have lc := calcChecksum_length H hc
  have lc' := calcChecksum_length H hc'
  have hbytes : a.pre.getD [] ++ p ++ a.suf.getD [] ++ c = b.pre.getD [] ++ q ++ b.suf.getD [] ++ c' := by
    obtain ⟨t1, e1, _, e3⟩ := C01_base58_roundtrip a.alphabet hal (a.pre.getD [] ++ p ++ a.suf.getD [] ++ c)
    obtain ⟨t2, e4, _, e6⟩ := C01_base58_roundtrip a.alphabet hal (b.pre.getD [] ++ q ++ b.suf.getD [] ++ c')
    rw [he] at e1; cases e1
    rw [he'] at e4; cases e4
    rw [e3] at e6
    exact Res.ok.inj e6
  have hlen := congrArg List.length hbytes
  simp only [List.length_append, lc, lc', hp, hq] at hlen
  have hpre : a.pre.getD [] <+: b.pre.getD [] ∨ b.pre.getD [] <+: a.pre.getD [] := by
    apply List.prefix_or_prefix_of_prefix (l₃ := a.pre.getD [] ++ p ++ a.suf.getD [] ++ c)
    · exact ⟨p ++ a.suf.getD [] ++ c, by simp⟩
    · rw [hbytes]; exact ⟨q ++ b.suf.getD [] ++ c', by simp⟩
  have key : form a = form b := by
    rcases hpre with h | h
    · exact forms a ha hEa b hb hEb (by omega) (List.isPrefixOf_iff_prefix.mpr h)
    · exact (forms b hb hEb a ha hEa (by omega) (List.isPrefixOf_iff_prefix.mpr h)).symm
  simp only [form, Prod.mk.injEq] at key
  exact hd key

/-- C146 is false for these profiles of different coins or networks: each of them accepts exactly the same texts as the others of its group, with the same results. -/
theorem C146_shared_violated (H : Hashes) (g : List AddressType) (hg : g ∈ shared) (a b : AddressType) (ha : a ∈ g) (hb : b ∈ g) (t p : Bytes) :
    addressDecode H t a = .ok p ↔ addressDecode H t b = .ok p := by
  have all : ∀ g ∈ shared, ∀ a ∈ g, ∀ b ∈ g, a.encodeType = asc "base58" ∧ b.encodeType = asc "base58" ∧ a.alphabet = b.alphabet ∧ a.alphabet = base58Btc ∧ form a = form b := by decide +kernel
  obtain ⟨h1, h2, h3, h4, h5⟩ := all g hg a ha b hb
  have hal : IsAlphabet a.alphabet := by rw [h4]; exact btcAlphabet
  simp only [form, Prod.mk.injEq] at h5
  obtain ⟨k1, k2, k3, k4⟩ := h5
  rw [decode_base58_iff H h1 hal, decode_base58_iff H h2 (h3 ▸ hal), k1, k2, k3, k4, h3]

/-- The groups are all there are: two different Base58 profiles with the same alphabet and the same version bytes, suffix, length and checksum are the same profile under two names, or are
in a group together. -/
theorem C146_groups : ∀ a ∈ profiles, a.encodeType = asc "base58" → ∀ b ∈ profiles, b.encodeType = asc "base58" → a.alphabet = b.alphabet →
    (a.pre = b.pre ∧ a.suf = b.suf ∧ a.hashLen = b.hashLen ∧ a.checksumType = b.checksumType) → a = b ∨ ∃ g ∈ shared, a ∈ g ∧ b ∈ g := by decide +kernel

/-- A Litecoin script address in its first form is a Bitcoin script address; a key address of Qtum's main network is a script address of Litecoin's test network. A Bitcoin key address is never taken for one of Litecoin. -/
example (H : Hashes) (t p : Bytes) : (addressDecode H t LTC_mainnetAddressP2SH = .ok p ↔ addressDecode H t BTC_mainnetAddressP2SH = .ok p) ∧
    (addressDecode H t QTUM_mainnetAddressP2PKH = .ok p ↔ addressDecode H t LTC_testnetAddressP2SH2 = .ok p) ∧
    (addressDecode H t BTC_mainnetAddressP2PKH = .ok p → ∀ q, addressDecode H t LTC_mainnetAddressP2PKH ≠ .ok q) :=
  ⟨C146_shared_violated H [BTC_mainnetAddressP2SH, LTC_mainnetAddressP2SH, BSV_mainnetAddressP2SH] (by decide +kernel) _ _ (by decide +kernel) (by decide +kernel) t p,
   C146_shared_violated H [LTC_testnetAddressP2SH2, QTUM_mainnetAddressP2PKH] (by decide +kernel) _ _ (by decide +kernel) (by decide +kernel) t p,
   fun h => C146_other_partial H BTC_mainnetAddressP2PKH LTC_mainnetAddressP2PKH (by decide +kernel) (by decide +kernel) rfl rfl rfl (by decide +kernel) t p h⟩

end Verif
