import Verif.Props.Polkadot
import Verif.Model.PolkadotText
import Verif.Spec.PolkadotText
import Verif.Lemmas.Fiii

/-! C121: a Polkadot transfer in its text form. -/

namespace Verif
open Verif.Spec Verif.Spec.Polkadot Verif.Json

namespace Polkadot

theorem parseUint_digits {t : Bytes} {n bits : Nat} (h : IsDigits t n) (hn : n < 2 ^ bits) : parseUint bits t = some n := by
  have hall : t.all isDigit = true := List.all_eq_true.mpr fun d hd => digits_isDigit (h.2.1 d hd)
  unfold parseUint
  rw [decVal_eq h.2.1, h.2.2.2, if_pos ⟨h.1, hall, hn⟩]

theorem toU64_digits {t : Bytes} {n : UInt64} (h : IsDigits t n.toNat) (c : UInt64) : toU64 c (.num t) = some n := by
  simp only [toU64, parseUint_digits h n.toNat_lt, Option.map_some, UInt64.ofNat_toNat]

theorem toU32_digits {t : Bytes} {n : UInt32} (h : IsDigits t n.toNat) (c : UInt32) : toU32 c (.num t) = some n := by
  simp only [toU32, parseUint_digits h n.toNat_lt, Option.map_some, UInt32.ofNat_toNat]

theorem encode_ne_panic (v : UInt64) (h : v ≠ 0) : encode v ≠ .panic := by
  intro hp
  by_cases hv : 2 ^ 30 ≤ v.toNat
  · obtain ⟨r, e, _⟩ := encode_long v hv
    rw [e] at hp; cases hp
  · obtain ⟨b, e, _⟩ := C32_compact_partial v h (by omega)
    rw [e] at hp; cases hp

theorem zeroOrCompact_ne_panic (v : UInt64) : zeroOrCompact v ≠ .panic := by
  unfold zeroOrCompact
  split
  · simp
  · rename_i h
    have := encode_ne_panic v h
    cases he : encode v with
    | panic => exact absurd he this
    | err => simp
    | ok t => simp

theorem hash32_ne_panic (t : Bytes) : hash32 t ≠ .panic := by
  unfold hash32
  have := Hex.decode_ne_panic t
  split
  · split <;> simp
  · simp
  · rename_i h; exact absurd h this

theorem method_ne_panic (c r : Bytes) (a : UInt64) : method c r a ≠ .panic := by
  unfold method
  have := Hex.decode_ne_panic r
  split
  · split
    · simp
    · split
      · simp
      · rename_i h
        have := encode_ne_panic a h
        cases he : encode a with
        | panic => exact absurd he this
        | err => simp
        | ok t => simp only [Res.bind_ok]; split <;> simp
  · simp
  · rename_i h; exact absurd h this

theorem bind_ne_panic {α β : Type} {x : Res α} {f : α → Res β} (hx : x ≠ .panic) (hf : ∀ a, x = .ok a → f a ≠ .panic) : (x >>= f) ≠ .panic := by
  cases x with
  | panic => exact absurd rfl hx
  | err => simp
  | ok a => simpa using hf a rfl

theorem payload_ne_panic (ts : TxStruct) (c : Bytes) : payload ts c ≠ .panic := by
  unfold payload
  refine bind_ne_panic (method_ne_panic _ _ _) fun m _ => ?_
  split
  · simp
  · refine bind_ne_panic (zeroOrCompact_ne_panic _) fun _ _ => bind_ne_panic (zeroOrCompact_ne_panic _) fun _ _ =>
      bind_ne_panic (hash32_ne_panic _) fun _ _ => bind_ne_panic (hash32_ne_panic _) fun _ _ => by simp

end Polkadot
open Polkadot

/-- C121, writing: for keys and hashes that are UTF-8 the text returned is the JSON object of the transfer. -/
theorem C121_text (ts : TxStruct) (h : TextUtf8 ts) : IsText ts (toText ts) := by
  refine ⟨_, _, _, _, _, _, formatNat_digits _, formatNat_digits _, formatNat_digits _, formatNat_digits _, formatNat_digits _, formatNat_digits _, marshal_json ?_⟩
  refine Clean.obj _ ?_ ?_ <;> intro m hm <;> simp only [List.mem_cons, List.not_mem_nil, or_false] at hm
  · rcases hm with rfl | rfl | rfl | rfl | rfl | rfl | rfl | rfl | rfl | rfl <;> exact Cosmos.asc_utf8 _ (by decide)
  · have num : ∀ n : Nat, Clean (.num (formatNat n)) := fun n => .num _ n (.inl ⟨n, rfl, formatNat_digits n⟩)
    rcases hm with rfl | rfl | rfl | rfl | rfl | rfl | rfl | rfl | rfl | rfl
    · exact .str _ h.1
    · exact .str _ h.2.1
    · exact num _
    · exact num _
    · exact num _
    · exact num _
    · exact .str _ h.2.2.1
    · exact .str _ h.2.2.2
    · exact num _
    · exact num _

/-- C121, reading: every text of a transfer is read as this transfer. -/
theorem C121_read (fold : Bytes → Bytes → Bool) (ts : TxStruct) (text : Bytes) (h : IsText ts text) : fromText fold text = some ts := by
  obtain ⟨a, n, f, b, s, v, ha, hn, hf, hb, hs, hv, hj⟩ := h
  unfold fromText
  rw [parse_json hj]
  unfold strMember Fiii.toStruct
  simp only
  rw [Fiii.setFields_cons (i := 0) (b := ⟨ts.senderPubkey, [], 0, 0, 0, 0, [], [], 0, 0⟩) fold (by decide) rfl,
    Fiii.setFields_cons (i := 1) (b := ⟨ts.senderPubkey, ts.recipientPubkey, 0, 0, 0, 0, [], [], 0, 0⟩) fold (by decide) rfl,
    Fiii.setFields_cons (i := 2) (b := ⟨ts.senderPubkey, ts.recipientPubkey, ts.amount, 0, 0, 0, [], [], 0, 0⟩) fold (by decide)
      (by simp only [setTx, toU64_digits ha]; rfl),
    Fiii.setFields_cons (i := 3) (b := ⟨ts.senderPubkey, ts.recipientPubkey, ts.amount, ts.nonce, 0, 0, [], [], 0, 0⟩) fold (by decide)
      (by simp only [setTx, toU64_digits hn]; rfl),
    Fiii.setFields_cons (i := 4) (b := ⟨ts.senderPubkey, ts.recipientPubkey, ts.amount, ts.nonce, ts.fee, 0, [], [], 0, 0⟩) fold (by decide)
      (by simp only [setTx, toU64_digits hf]; rfl),
    Fiii.setFields_cons (i := 5) (b := ⟨ts.senderPubkey, ts.recipientPubkey, ts.amount, ts.nonce, ts.fee, ts.blockHeight, [], [], 0, 0⟩) fold (by decide)
      (by simp only [setTx, toU64_digits hb]; rfl),
    Fiii.setFields_cons (i := 6) (b := ⟨ts.senderPubkey, ts.recipientPubkey, ts.amount, ts.nonce, ts.fee, ts.blockHeight, ts.blockHash, [], 0, 0⟩) fold
      (by decide) rfl,
    Fiii.setFields_cons (i := 7) (b := ⟨ts.senderPubkey, ts.recipientPubkey, ts.amount, ts.nonce, ts.fee, ts.blockHeight, ts.blockHash, ts.genesisHash, 0, 0⟩)
      fold (by decide) rfl,
    Fiii.setFields_cons (i := 8) (b := { ts with txVersion := 0 }) fold (by decide) (by simp only [setTx, toU32_digits hs]; rfl),
    Fiii.setFields_cons (i := 9) (b := ts) fold (by decide) (by simp only [setTx, toU32_digits hv]; rfl)]
  rfl

/-- C121: different transfers have different texts. -/
theorem C121_injective (t t' : TxStruct) (h : TextUtf8 t) (h' : TextUtf8 t') (he : toText t = toText t') : t = t' := by
  have h1 := C121_read (fun _ _ => false) t _ (C121_text t h)
  have h2 := C121_read (fun _ _ => false) t' _ (C121_text t' h')
  rw [he, h2] at h1
  exact (Option.some.inj h1).symm

/-- A number that does not fit in the field, or is written with sign, fraction or exponent, is refused: a number is read exactly if it
consists of decimal digits and fits. -/
theorem C121_range (bits : Nat) (t : Bytes) (n : Nat) : parseUint bits t = some n ↔ (t ≠ [] ∧ (∀ d ∈ t, 0x30 ≤ d.toNat ∧ d.toNat ≤ 0x39)) ∧ decValue t = n ∧ n < 2 ^ bits := by
  have hd : ∀ d : UInt8, isDigit d = true ↔ 0x30 ≤ d.toNat ∧ d.toNat ≤ 0x39 := by
    intro d
    unfold isDigit
    rw [decide_eq_true_iff, UInt8.le_iff_toNat_le, UInt8.le_iff_toNat_le]
    rfl
  unfold parseUint
  constructor
  · intro h
    split at h
    · rename_i hh
      obtain ⟨h1, h2, h3⟩ := hh
      have h2' : ∀ d ∈ t, 0x30 ≤ d.toNat ∧ d.toNat ≤ 0x39 := fun d hx => (hd d).mp (List.all_eq_true.mp h2 d hx)
      have h := Option.some.inj h
      rw [decVal_eq h2'] at h h3
      exact ⟨⟨h1, h2'⟩, h, by omega⟩
    · cases h
  · rintro ⟨⟨h1, h2⟩, rfl, h3⟩
    rw [decVal_eq h2, if_pos ⟨h1, List.all_eq_true.mpr fun d hx => (hd d).mpr (h2 d hx), h3⟩]

/-- C121, the two calls together: creation returns the text of the transfer and the message to sign; combining this text with a signature
succeeds exactly if the signature is valid for that message under the sender's key. -/
theorem C121_combine (fold : Bytes → Bytes → Bool) (verify : Bytes → Bytes → Bytes → Bool) (ts : TxStruct) (code sigHex : Bytes)
    (ha : ts.amount.toNat ≤ 2 ^ 64 - 2 ^ 56) (hn : ts.nonce.toNat ≤ 2 ^ 64 - 2 ^ 56) (hf : ts.fee.toNat ≤ 2 ^ 64 - 2 ^ 56)
    (hcode : code.length < 2 ^ 32) (h0 : ts.amount ≠ 0) (hb : ts.blockHeight ≠ 0)
    (sender dest genesis block sig : Bytes) (h1 : Hex.decode ts.senderPubkey = .ok sender) (l1 : sender.length = 32)
    (h2 : Hex.decode ts.recipientPubkey = .ok dest) (l2 : dest.length = 32)
    (h3 : Hex.decode ts.genesisHash = .ok genesis) (l3 : genesis.length = 32)
    (h4 : Hex.decode ts.blockHash = .ok block) (l4 : block.length = 32)
    (h5 : Hex.decode sigHex = .ok sig) (l5 : sig.length = 64) :
    ∃ text msg, createText ts code = .ok (text, Hex.encode msg) ∧ IsText ts text ∧
      (verify sender msg sig = true → ∃ t, t ≠ [] ∧ combineText fold verify code text sigHex = .ok (t, true)) ∧
      (verify sender msg sig = false → combineText fold verify code text sigHex = .ok ([], false)) := by
  have hu : TextUtf8 ts := ⟨Cosmos.ascii_utf8 (Fiii.hex_ascii h1), Cosmos.ascii_utf8 (Fiii.hex_ascii h2), Cosmos.ascii_utf8 (Fiii.hex_ascii h4),
    Cosmos.ascii_utf8 (Fiii.hex_ascii h3)⟩
  obtain ⟨msg, hc, ht, hfl⟩ := C34_complete_partial verify ts code sigHex ha hn hf hcode h0 hb sender dest genesis block sig h1 l1 h2 l2 h3 l3 h4 l4 h5 l5
  have htext := C121_text ts hu
  refine ⟨toText ts, msg, by unfold createText; rw [hc]; rfl, htext, ?_, ?_⟩ <;> unfold combineText <;> rw [C121_read fold ts _ htext]
  · exact ht
  · exact hfl

/-- C121, signing: the message of a created transfer is signed with the key; what Ed25519 signatures verify is combined. -/
theorem C121_sign (sign : Bytes → Bytes → Option Bytes) (msg key s : Bytes) : signTransaction sign msg key = .ok s ↔
    ∃ m, Hex.decode msg = .ok m ∧ m ≠ [] ∧ key.length = 32 ∧ sign key m = some s := by
  unfold signTransaction
  cases hm : Hex.decode msg with
  | panic => simp
  | err => simp
  | ok m =>
    simp only [Res.ok.injEq, exists_eq_left']
    by_cases h1 : m.length = 0
    · simp [List.length_eq_zero_iff.mp h1]
    · rw [if_neg h1]
      have h1' : m ≠ [] := fun h => h1 (by simp [h])
      by_cases h2 : key.length = 32
      · rw [if_neg (by simpa using h2)]
        cases hs : sign key m with
        | none => simp
        | some x => simp [h1', h2]
      · rw [if_pos h2]
        simp [h2]

/-- C121: combining never crashes, whatever the text, the signature and the code (of less than 2^32 characters). -/
theorem C121_no_panic (fold : Bytes → Bytes → Bool) (verify : Bytes → Bytes → Bytes → Bool) (code text sigHex : Bytes) (hcode : code.length < 2 ^ 32) :
    combineText fold verify code text sigHex ≠ .panic := by
  unfold combineText
  split
  · simp
  rename_i ts _
  unfold verifyAndCombine
  have hpp := payload_ne_panic ts code
  split
  · rename_i h; exact absurd h hpp
  · simp
  split
  swap
  · simp
  split
  · simp
  split
  swap
  · simp
  have : getSigned ts code sigHex ≠ .panic := by
    unfold getSigned
    split
    swap
    · simp
    split
    · simp
    split
    swap
    · simp
    split
    · simp
    split
    · simp
    rename_i sender _ hsl _ sig _ hsig hh
    refine bind_ne_panic (zeroOrCompact_ne_panic _) fun nonce hnonce => bind_ne_panic (zeroOrCompact_ne_panic _) fun fee hfee =>
      bind_ne_panic (method_ne_panic _ _ _) fun m hm => bind_ne_panic ?_ fun _ _ => by simp
    have hz : ∀ (v : UInt64) (b : Bytes), encode v = .ok b → b.length ≤ 18 := by
      intro v b hb
      by_cases hv : 2 ^ 30 ≤ v.toNat
      · obtain ⟨r, e, _, hr, _⟩ := encode_long v hv
        rw [e] at hb; cases hb
        simp only [Hex.encode_length, List.length_cons]
        omega
      · by_cases hv0 : v = 0
        · subst hv0
          rw [C32_zero_violated] at hb; cases hb
        · obtain ⟨b', e, hc⟩ := C32_compact_partial v hv0 (by omega)
          have := compact_length_le hc v.toNat_lt
          rw [e] at hb; cases hb
          rw [Hex.encode_length]
          omega
    have hzc : ∀ (v : UInt64) (b : Bytes), zeroOrCompact v = .ok b → b.length ≤ 18 := by
      intro v b hb
      unfold zeroOrCompact at hb
      split at hb
      · cases hb; simp
      · obtain ⟨t, ht, hb⟩ := Res.bind_eq_ok.mp hb
        cases hb
        have := hz v t ht
        have := decodePrefix_length t
        omega
    have hml : m.length ≤ code.length + 32 + 18 := by
      unfold method at hm
      split at hm
      · rename_i pub _
        split at hm
        · cases hm
        split at hm
        · cases hm
        obtain ⟨t, ht, hm⟩ := Res.bind_eq_ok.mp hm
        simp only at hm
        split at hm
        · cases hm
        · cases hm
          have h1 := hz _ t ht
          have h2 := decodePrefix_length t
          have h3 := decodePrefix_length code
          simp only [List.length_append]
          omega
      · cases hm
      · cases hm
    have h1 := hzc _ _ hnonce
    have h2 := hzc _ _ hfee
    refine encode_ne_panic _ ?_
    intro h
    have h := congrArg UInt64.toNat h
    rw [UInt64.toNat_ofNat'] at h
    simp only [List.length_append, List.length_cons, List.length_nil] at h
    have h5 : (getEra ts.blockHeight).length = 2 := rfl
    have : sender.length = 32 := by simpa using hsl
    have h6 : sig.length = 64 := by simpa using hsig
    rw [h5, this, h6, Nat.mod_eq_of_lt (by omega)] at h
    simp at h
  split
  · simp
  · simp
  · rename_i h; exact absurd h this

/-- C121, whatever the text: success with a non-empty result means that the text is read as some transfer, and (numbers in the range of C32) the result
is the extrinsic of this transfer with the given signature, valid under the sender's key for the message of this transfer. -/
theorem C121_sound (fold : Bytes → Bytes → Bool) (verify : Bytes → Bytes → Bytes → Bool) (code text sigHex t : Bytes) (hcode : code.length < 2 ^ 32)
    (h : combineText fold verify code text sigHex = .ok (t, true)) (ht : t ≠ []) : ∃ ts, fromText fold text = some ts ∧
      (ts.amount.toNat ≤ 2 ^ 64 - 2 ^ 56 → ts.nonce.toNat ≤ 2 ^ 64 - 2 ^ 56 → ts.fee.toNat ≤ 2 ^ 64 - 2 ^ 56 →
        ∃ (d : Spec.Polkadot.Decoded ts code) (sig len : Bytes), createText ts code = .ok (toText ts, Hex.encode d.message) ∧
          Hex.decode sigHex = .ok sig ∧ sig.length = 64 ∧ verify d.sender d.message sig = true ∧ IsCompact len (d.extrinsic sig).length ∧
          t = asc "0x" ++ Hex.encode (len ++ d.extrinsic sig)) := by
  unfold combineText at h
  split at h
  · cases h
  · rename_i ts hts
    refine ⟨ts, hts, fun ha hn hf => ?_⟩
    obtain ⟨d, sig, len, h1, h2⟩ := C34_combine_partial verify ts code sigHex t ha hn hf hcode h ht
    exact ⟨d, sig, len, by unfold createText; rw [h1]; rfl, h2⟩

/-- The limit of C121: a key that is not UTF-8 is not kept (Go replaces the byte); such a key is no hex text and is refused on combining. -/
theorem C121_limit_utf8 : fromText (fun _ _ => false) (toText { demo with senderPubkey := [0xff] }) = some { demo with senderPubkey := [0xef, 0xbf, 0xbd] } := by
  decide +kernel

example : TextUtf8 demo ∧ fromText (fun _ _ => false) (toText demo) = some demo := by
  have h : TextUtf8 demo := by
    refine ⟨?_, ?_, ?_, ?_⟩ <;> exact Cosmos.ascii_utf8 (by decide +kernel)
  exact ⟨h, C121_read _ _ _ (C121_text _ h)⟩

end Verif
