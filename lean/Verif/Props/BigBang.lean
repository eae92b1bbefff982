import Verif.Lemmas.BigBang

/-! C50, C73: BigBang checksums, addresses and transfers. -/

namespace Verif
open Verif.BigBang Verif.Spec.BigBang

/-- C50, checksum: the table-driven checksum of every byte string is its CRC-24Q, computed bit by bit. -/
theorem C50_crc (data : Bytes) : (crc24q data).toNat = (crc24 data).toNat := crc24q_eq data

example : crc24q (asc "123456789") = 0xcde703 := by decide +kernel

/-- C50, addresses: a text is accepted exactly when it starts with 1 and, apart from line breaks, is the address of a 32-byte key; the
result is the kind byte 1 followed by that key. -/
theorem C50_accepts (text b : Bytes) : addressDecode text = .ok b ↔
    text.head? = some 0x31 ∧ ∃ key, IsAddress key (text.filter fun c => c != 0x0a && c != 0x0d) ∧ b = 1 :: key :=
  addressDecode_ok_iff text b

/-- C50: every 32-byte key has an address that decodes to it. -/
theorem C50_complete (key : Bytes) (h : key.length = 32) : ∃ text, IsAddress key text ∧ addressDecode text = .ok (1 :: key) := by
  refine ⟨_, ⟨h, rfl⟩, (addressDecode_ok_iff _ _).mpr ⟨rfl, key, ⟨h, ?_⟩, rfl⟩⟩
  unfold stripNewlines
  rw [List.filter_cons_of_pos (by decide)]
  refine congrArg _ (List.filter_eq_self.mpr ?_)
  intro c hc
  have hs := base32_symbols _ c hc
  have hn : symbol 0x0a = none ∧ symbol 0x0d = none := by decide +kernel
  have h1 : c ≠ 0x0a := fun e => hs (e ▸ hn.1)
  have h2 : c ≠ 0x0d := fun e => hs (e ▸ hn.2)
  simp [h1, h2]

example : addressDecode (asc "1j3xa8kka2d0y1ep3x7dadvkwy771aa02h791029t4sqhgn4j8c3xysst") =
    .ok (1 :: [144, 250, 164, 78, 106, 19, 65, 224, 186, 195, 233, 218, 166, 238, 124, 241,
      206, 21, 40, 2, 137, 210, 16, 9, 58, 38, 111, 24, 84, 146, 67, 7]) := by
  decide +kernel

/-- C50, mistyping: an accepted address with up to four neighbouring characters replaced is never accepted again. -/
theorem C50_typo (pre m m' suf b b' : Bytes) (hl : m.length = m'.length) (h4 : m.length ≤ 4)
    (hm : ∀ c ∈ m, c ≠ 0x0a ∧ c ≠ 0x0d) (hm' : ∀ c ∈ m', c ≠ 0x0a ∧ c ≠ 0x0d)
    (h : addressDecode (pre ++ m ++ suf) = .ok b) (h' : addressDecode (pre ++ m' ++ suf) = .ok b') : m = m' := by
  obtain ⟨f, key, hk, _⟩ := (addressDecode_ok_iff _ _).mp h
  obtain ⟨f', key', hk', _⟩ := (addressDecode_ok_iff _ _).mp h'
  have keep : ∀ {l : Bytes}, (∀ c ∈ l, c ≠ 0x0a ∧ c ≠ 0x0d) → stripNewlines l = l := by
    intro l hl
    refine List.filter_eq_self.mpr ?_
    intro c hc
    simp [(hl c hc).1, (hl c hc).2]
  have hs : ∀ l, stripNewlines l = m → stripNewlines (pre ++ l ++ suf) = stripNewlines pre ++ m ++ stripNewlines suf := by
    intro l hl; unfold stripNewlines at *; rw [List.filter_append, List.filter_append, hl]
  have hs' : ∀ l, stripNewlines l = m' → stripNewlines (pre ++ l ++ suf) = stripNewlines pre ++ m' ++ stripNewlines suf := by
    intro l hl; unfold stripNewlines at *; rw [List.filter_append, List.filter_append, hl]
  rw [hs m (keep hm)] at hk
  rw [hs' m' (keep hm')] at hk'
  -- the core: the symbols after the first character
  have core : ∀ p q q' s : Bytes, q.length = q'.length → q.length ≤ 4 →
      p ++ q ++ s = base32 (key ++ beBytes 3 (crc24 key).toNat) → p ++ q' ++ s = base32 (key' ++ beBytes 3 (crc24 key').toNat) → q = q' := by
    intro p q q' s hq hq4 e e'
    have l1 : (key ++ beBytes 3 (crc24 key).toNat).length % 5 = 0 := by rw [List.length_append, beBytes_length, hk.1]
    have l2 : (key' ++ beBytes 3 (crc24 key').toNat).length % 5 = 0 := by rw [List.length_append, beBytes_length, hk'.1]
    have c1 := residue key
    have c2 := residue key'
    rw [foldl_bits8, ← bits5_base32 l1, ← e] at c1
    rw [foldl_bits8, ← bits5_base32 l2, ← e'] at c2
    have sp : ∀ a b c : Bytes, bits5 (a ++ b ++ c) = bits5 a ++ bits5 b ++ bits5 c := by
      intro a b c; unfold bits5; rw [List.flatMap_append, List.flatMap_append]
    rw [sp] at c1 c2
    have hb := burstBits (by rw [bits5_length, bits5_length, hq]) (by rw [bits5_length]; omega) (c1.trans c2.symm)
    have y1 := base32_symbols (key ++ beBytes 3 (crc24 key).toNat)
    have y2 := base32_symbols (key' ++ beBytes 3 (crc24 key').toNat)
    rw [← e] at y1
    rw [← e'] at y2
    exact bits5_inj hq (fun c hc => y1 c (by simp [hc])) (fun c hc => y2 c (by simp [hc])) hb
  have e1 := hk.2
  have e2 := hk'.2
  cases pre with
  | nil =>
    cases m with
    | nil => cases m' with
      | nil => rfl
      | cons _ _ => simp at hl
    | cons x m1 => cases m' with
      | nil => simp at hl
      | cons x' m1' =>
        simp only [stripNewlines, List.filter_nil, List.nil_append, List.cons_append, List.cons.injEq] at e1 e2
        rw [e1.1, e2.1, core [] m1 m1' (stripNewlines suf) (by simpa using hl) (by simp only [List.length_cons] at h4; omega) e1.2 e2.2]
  | cons x pre =>
    simp only [List.cons_append, List.head?_cons, Option.some.injEq] at f
    subst f
    have hp : stripNewlines (0x31 :: pre) = 0x31 :: stripNewlines pre := rfl
    rw [hp] at e1 e2
    simp only [List.cons_append, List.cons.injEq, true_and] at e1 e2
    exact core _ m m' _ hl h4 e1 e2

/-- One wrong character, spelled out. -/
example : addressDecode (asc "1j3xa8kka2d0y1ep3x7dadvkwy771aa02h791029t4sqhgn4j8c3xysss") = .err := by decide +kernel

/-- C50, limit: an address is not unique as a text, since line breaks anywhere after the first character are ignored. -/
theorem C50_line_breaks (a c b : Bytes) (h : addressDecode (0x31 :: (a ++ c)) = .ok b) :
    addressDecode (0x31 :: (a ++ 0x0a :: c)) = .ok b ∧ addressDecode (0x31 :: (a ++ 0x0d :: c)) = .ok b := by
  rw [addressDecode_ok_iff] at h ⊢
  rw [addressDecode_ok_iff]
  obtain ⟨_, h⟩ := h
  have e : ∀ x : UInt8, x = 0x0a ∨ x = 0x0d → stripNewlines (0x31 :: (a ++ x :: c)) = stripNewlines (0x31 :: (a ++ c)) := by
    rintro x (rfl | rfl) <;> simp [stripNewlines]
  rw [e _ (Or.inl rfl), e _ (Or.inr rfl)]
  exact ⟨⟨rfl, h⟩, ⟨rfl, h⟩⟩

/-- C73: the transaction text is the wire form of exactly the requested transfer, and the hash to sign is BLAKE2b-256 of it; and every
request with well-formed texts, at least one input and non-zero amount and fee is served. -/
theorem C73_layout (H : Hashes) (timestamp lockUntil : UInt32) (anchor : Bytes) (inputs : List Vin) (to_ : Bytes) (amount fee : UInt64)
    (data text hash : Bytes) :
    createEmpty H timestamp lockUntil anchor inputs to_ amount fee data = .ok (text, hash) ↔
      ∃ t : Tx, text = Hex.encode t.wire ∧ hash = Hex.encode (H.hash (.blake2b 32) t.wire) ∧
        t.time = timestamp.toNat ∧ t.lockUntil = lockUntil.toNat ∧ Hex.decode anchor = .ok t.anchor ∧ inputs ≠ [] ∧
        List.Forall₂ (fun v i => Hex.decode v.txid = .ok i.1 ∧ i.1.length = 32 ∧ v.vout = i.2) inputs t.inputs ∧
        to_.head? = some 0x31 ∧ IsAddress t.to_ (to_.filter fun c => c != 0x0a && c != 0x0d) ∧
        t.amount = amount.toNat ∧ amount ≠ 0 ∧ t.fee = fee.toNat ∧ fee ≠ 0 ∧ t.data = data := by
  unfold createEmpty
  constructor
  · intro h
    obtain ⟨raw, hr, h⟩ := Res.bind_eq_ok.mp h
    cases h
    obtain ⟨t, rfl, ht⟩ := (newTx_ok_iff _ _ _ _ _ _ _ _ _).mp hr
    exact ⟨t, rfl, rfl, ht⟩
  · rintro ⟨t, rfl, rfl, h⟩
    rw [(newTx_ok_iff _ _ _ _ _ _ _ _ _).mpr ⟨t, rfl, h⟩, Res.bind_ok]

/-- C73 for requests that fit the format (anchor of 32 bytes, fewer than 256 inputs, fewer than 256 bytes of data): the transaction
text determines the whole request: time, lock time, anchor, inputs, recipient key, amount, fee and data. -/
theorem C73_injective_partial (t u : Tx) (ht : t.Fits) (hu : u.Fits) (h : Hex.encode t.wire = Hex.encode u.wire) : t = u :=
  (wire_prefix (r := []) (s := []) ht hu (by rw [Hex.encode_inj h])).1

example : Tx.Fits ⟨1572920900, 0, List.replicate 32 7, [(List.replicate 32 9, 0)], List.replicate 32 5, 1000000, 100, []⟩ := by
  refine ⟨by decide, by decide, by decide, by decide, ?_, by decide, by decide, by decide, by decide⟩
  intro i hi
  rw [List.mem_singleton.mp hi]
  rfl

example : (createEmpty toyHashes 1572920900 0 (asc "00000000dcde418dca150e49f53ab857d5ccd095a800bfb29ea87385267bc069")
    [⟨asc "5dba7e87b7060a1cab84d13700e17519b5cde33d2aaa466d45c519d5e125dada", 0⟩]
    (asc "1j3xa8kka2d0y1ep3x7dadvkwy771aa02h791029t4sqhgn4j8c3xysst") 1000000 100 []).isOk = true := by decide +kernel

/-- Where C73 fails (a): the length of the anchor is not checked. A transfer whose first of two inputs spends output 1 has the same
bytes as a transfer that spends only the second input and has a longer anchor. -/
theorem C73_anchor_violated (t : Tx) (i j : Bytes × UInt8) (hi : i.2 = 1) (ht : t.inputs = [i, j]) :
    ∃ anchor : Bytes, anchor ≠ t.anchor ∧ Tx.wire { t with anchor := anchor, inputs := [j] } = t.wire := by
  refine ⟨i.1 ++ 2 :: t.anchor, ?_, ?_⟩
  · intro h
    have := congrArg List.length h
    simp at this
    omega
  · unfold Tx.wire
    simp only [ht, hi, List.reverse_append, List.reverse_cons, List.flatMap_cons, List.flatMap_nil, List.append_nil, List.append_assoc,
      List.cons_append, List.nil_append, List.length_cons, List.length_nil]
    rfl

/-- Where C73 fails (b): data of 256 bytes are accepted, with length byte 0; the result is not the wire form of any transfer that fits
the format. -/
theorem C73_data_violated (t u : Tx) (ht : { t with data := [] }.Fits) (hd : t.data.length = 256) (hu : u.Fits) :
    t.wire ≠ u.wire := by
  intro h
  have e : t.wire = Tx.wire { t with data := [] } ++ t.data := by
    unfold Tx.wire
    simp only [hd, List.append_assoc, List.cons_append, List.nil_append, List.length_nil]
    rfl
  have := (wire_prefix (r := t.data) (s := []) ht hu (by rw [← e, h, List.append_nil])).2
  rw [this] at hd
  cases hd

example : Tx.Fits { (⟨0, 0, List.replicate 32 7, [(List.replicate 32 9, 0)], List.replicate 32 5, 1, 1, List.replicate 256 0⟩ : Tx) with
    data := [] } := by
  refine ⟨by decide, by decide, by decide, by decide, ?_, by decide, by decide, by decide, by decide⟩
  intro i hi
  rw [List.mem_singleton.mp hi]
  rfl

/-- Where C73 fails (c): 256 inputs are accepted, with count byte 0; unless the first one's transaction id happens to end in 01, the
result is not the wire form of any transfer that fits the format. -/
theorem C73_count_violated (t u : Tx) (hc : t.inputs.length = 256) (ha : t.anchor.length = 32)
    (h1 : ∀ i ∈ t.inputs.head?, ∃ x y, i.1 = x ++ [y] ∧ y ≠ 1) (hu : u.Fits) : t.wire ≠ u.wire := by
  intro h
  obtain ⟨u1, u2, u3, u4, u5, u6, u7, u8, u9⟩ := hu
  unfold Tx.wire at h
  simp only [List.append_assoc, List.cons_append, List.nil_append, List.cons.injEq, true_and] at h
  obtain ⟨_, h⟩ := app h (by simp)
  obtain ⟨_, h⟩ := app h (by simp)
  obtain ⟨_, h⟩ := app h (by simp [u3, ha])
  obtain ⟨e4, h⟩ := List.cons.inj h
  rw [hc] at e4
  have h0 : u.inputs.length = 0 := (u8_inj (m := 0) (by decide) u4 e4).symm
  rw [List.length_eq_zero_iff.mp h0] at h
  match hh : t.inputs, hc with
  | i :: is, _ =>
    rw [hh] at h h1
    obtain ⟨x, y, hi, hy⟩ := h1 i rfl
    simp only [List.flatMap_cons, hi, List.reverse_append, List.reverse_cons, List.reverse_nil, List.nil_append, List.cons_append,
      List.flatMap_nil, List.append_assoc] at h
    exact hy (List.cons.inj h).1

/-- C73, combining: the result is a signed transaction exactly when the signature is a valid Ed25519 signature by the given key of the
BLAKE2b-256 hash of that very transaction; it is the transaction, the byte 0x40 and the signature. -/
theorem C73_combine (H : Hashes) (verify : Bytes → Bytes → Bytes → Bool) (emptyTrans signature pubkey out : Bytes) :
    verifyAndCombine H verify emptyTrans signature pubkey = (true, out) ↔
      ∃ tx sig, Hex.decode emptyTrans = .ok tx ∧ tx ≠ [] ∧ Hex.decode signature = .ok sig ∧ sig.length = 64 ∧ pubkey.length = 32 ∧
        verify pubkey (H.hash (.blake2b 32) tx) sig = true ∧ out = Hex.encode (tx ++ 0x40 :: sig) := by
  unfold verifyAndCombine
  constructor
  · intro h
    split at h
    · rename_i tx htx
      split at h
      · cases h
      rename_i hne
      split at h
      · rename_i sig hsig
        split at h
        · cases h
        split at h
        · cases h
        split at h
        · cases h
        rename_i a b c
        cases h
        refine ⟨tx, sig, htx, ?_, hsig, by omega, by omega, by simpa using c, by simp⟩
        rintro rfl
        exact hne rfl
      · cases h
    · cases h
  · rintro ⟨tx, sig, h1, h2, h3, h4, h5, h6, rfl⟩
    rw [h1]
    simp only [h3, h4, h5, h6]
    rw [if_neg (by simpa using h2)]
    simp

/-- C73: creating and combining fit together. The text of a created transaction is accepted with every valid signature of its hash, and the
result contains the transaction unchanged. -/
theorem C73_end_to_end (H : Hashes) (verify : Bytes → Bytes → Bytes → Bool) (timestamp lockUntil : UInt32) (anchor : Bytes)
    (inputs : List Vin) (to_ : Bytes) (amount fee : UInt64) (data text hash hb sig pubkey : Bytes)
    (h : createEmpty H timestamp lockUntil anchor inputs to_ amount fee data = .ok (text, hash)) (hh : Hex.decode hash = .ok hb)
    (hs : sig.length = 64) (hp : pubkey.length = 32) (hv : verify pubkey hb sig = true) :
    verifyAndCombine H verify text (Hex.encode sig) pubkey = (true, text ++ asc "40" ++ Hex.encode sig) := by
  obtain ⟨t, rfl, rfl, _⟩ := (C73_layout ..).mp h
  rw [Hex.decode_encode] at hh
  cases hh
  refine (C73_combine ..).mpr ⟨t.wire, sig, Hex.decode_encode _, ?_, Hex.decode_encode _, hs, hp, hv, ?_⟩
  · unfold Tx.wire; simp
  · rw [show (0x40 : UInt8) :: sig = [0x40] ++ sig from rfl, ← List.append_assoc, Hex.encode_append, Hex.encode_append]
    rfl

end Verif
