import Verif.Lemmas.Ripple
import Verif.Lemmas.BtcSig
import Verif.Props.Base58

/-! C36, C37, C67: payments on the XRP ledger. -/

namespace Verif
open Verif.Ripple Verif.Spec.Ripple

namespace Ripple

/-- The account id behind an address: 20 bytes whose Base58Check text (with version byte 0) is the address. -/
def IsAccount (H : Hashes) (address account : Bytes) : Prop :=
  account.length = 20 ∧
  Base58.decode alphabet address = .ok ([0x00] ++ account ++ (H.hash .doubleSha256 ([0x00] ++ account)).take 4)

/-- The tag and memo arguments as optional values: a negative tag or an empty memo text means "absent". -/
def tagOf (p : Payment) : Option Nat := if p.destinationTag < 0 then none else some p.destinationTag.toInt.toNat
def memoOf (p : Payment) : Option (Bytes × Bytes × Bytes) :=
  if p.memoData = [] then none else some (p.memoType, p.memoData, p.memoFormat)

theorem programHash_ok {H : Hashes} {a h : Bytes} (e : programHash H a = .ok h) : IsAccount H a h := by
  unfold programHash at e
  split at e
  · rename_i ret hd
    split at e
    · cases e
    split at e
    · cases e
    split at e
    · cases e
    rename_i h1 h2 h3
    simp only [ne_eq, not_not] at h1 h2 h3
    cases e
    have e0 : ret.take 21 = [0x00] ++ (ret.take 21).drop 1 := by
      have : (ret.take 21).take 1 = [0x00] := by rw [List.take_take]; simpa using h3
      conv_lhs => rw [← List.take_append_drop 1 (ret.take 21), this]
    refine ⟨by simp [h1], ?_⟩
    rw [hd, ← e0, h2, List.take_append_drop]
  · cases e
  · cases e

/-- What success of `NewTxStruct` means. -/
theorem newTxStruct_inv {H : Hashes} {p : Payment} {sig : Bytes} {t : TxStruct} (h : newTxStruct H p sig = .ok t) :
    ∃ pub acc dst s, p.amount ≠ 0 ∧ p.fee ≠ 0 ∧ Hex.decode p.pubkey = .ok pub ∧ pub.length = 33 ∧
      IsAccount H p.from_ acc ∧ IsAccount H p.to_ dst ∧
      optionalSignature sig = .ok s ∧
      t.txnSignature = s ∧
      t.pre = (encTransactionType ++ beBytes 2 0) ++ (encFlags ++ beBytes 4 0x80000000) ++ (encSequence ++ beBytes 4 p.sequence.toNat) ++
        destinationTagBytes p.destinationTag ++ (encLastLedgerSequence ++ beBytes 4 p.lastLedgerSequence.toNat) ++
        (encAmount ++ valueBytes p.amount) ++ (encFee ++ valueBytes p.fee) ++ (encSigningPubKey ++ lengthPrefixed pub) ∧
      t.post = (encAccount ++ lengthPrefixed acc) ++ (encDestination ++ lengthPrefixed dst) ++
        memosBytes p.memoType p.memoData p.memoFormat ∧
      ∀ sig', newTxStruct H p sig' = (do
        let s' ← optionalSignature sig'
        .ok { t with txnSignature := s' }) := by
  unfold newTxStruct at h
  obtain ⟨amt, h1, h⟩ := Res.bind_eq_ok.mp h
  obtain ⟨fee, h2, h⟩ := Res.bind_eq_ok.mp h
  obtain ⟨pk, h3, h⟩ := Res.bind_eq_ok.mp h
  obtain ⟨s, h4, h⟩ := Res.bind_eq_ok.mp h
  obtain ⟨acc, h5, h⟩ := Res.bind_eq_ok.mp h
  obtain ⟨dst, h6, h⟩ := Res.bind_eq_ok.mp h
  cases h
  have h1' := h1
  have h2' := h2
  have h3' := h3
  unfold amountBytes at h1 h2
  split at h1
  · cases h1
  split at h2
  · cases h2
  rename_i n1 n2
  cases h1
  cases h2
  unfold signingPubKeyBytes at h3
  split at h3
  · rename_i pub hp
    split at h3
    · cases h3
    rename_i hc
    cases h3
    obtain ⟨a, ha, h5⟩ := Res.bind_eq_ok.mp (show (programHash H p.from_ >>= fun h => Res.ok (encAccount ++ lengthPrefixed h)) = _ from h5)
    obtain ⟨d, hd, h6⟩ := Res.bind_eq_ok.mp (show (programHash H p.to_ >>= fun h => Res.ok (encDestination ++ lengthPrefixed h)) = _ from h6)
    cases h5
    cases h6
    have e5 : accountBytes H encAccount p.from_ = .ok (encAccount ++ lengthPrefixed a) := by unfold accountBytes; rw [ha]; rfl
    have e6 : accountBytes H encDestination p.to_ = .ok (encDestination ++ lengthPrefixed d) := by unfold accountBytes; rw [hd]; rfl
    refine ⟨pub, a, d, s, n1, n2, hp, ?_, programHash_ok ha, programHash_ok hd, h4, rfl, rfl, rfl, ?_⟩
    · by_contra hcc
      exact hc (Or.inl hcc)
    · intro sig'
      unfold newTxStruct
      rw [h1', h2', h3', e5, e6]
      rfl
  · cases h3
  · cases h3

/-- The size of the tag field. -/
def tagSize (p : Payment) : Nat := match tagOf p with | some _ => 5 | none => 0

theorem memos_parse (p : Payment) (h1 : p.memoType.length ≤ 192) (h2 : p.memoData.length ≤ 192) (h3 : p.memoFormat.length ≤ 192) :
    Parses (memosBytes p.memoType p.memoData p.memoFormat)
      (memoFields (memoOf p)) := by
  unfold memosBytes memoOf
  by_cases hd : p.memoData = []
  · rw [if_neg (by simpa using hd), if_pos hd]
    exact Parses.nil
  rw [if_pos hd, if_neg hd]
  unfold memoFields
  have pEnd : Parses (encEndOfObject ++ encEndOfArray) [(14, 1, []), (15, 1, [])] :=
    Parses.one (x := 0xe1) 14 1 rfl rfl (by decide) (contentMarker 14 (by simp) _)
      (Parses.one (x := 0xf1) 15 1 rfl rfl (by decide) (contentMarker 15 (by simp) _) Parses.nil)
  have pFormat : Parses ((if p.memoFormat ≠ [] then encMemoFormat ++ lengthPrefixed p.memoFormat else []) ++
      (encEndOfObject ++ encEndOfArray)) ((if p.memoFormat = [] then [] else [(7, 14, p.memoFormat)]) ++ [(14, 1, []), (15, 1, [])]) := by
    by_cases c : p.memoFormat = []
    · rw [if_neg (by simpa using c), if_pos c]; exact pEnd
    · rw [if_pos c, if_neg c, List.append_assoc]
      exact Parses.one (x := 0x7e) 7 14 rfl rfl (by decide) (contentVL 7 (by simp) _ _ h3) pEnd
  have pData := Parses.one (x := 0x7d) 7 13 rfl rfl (by decide) (contentVL 7 (by simp) _ _ h2) pFormat
  have pType : Parses ((if p.memoType ≠ [] then encMemoType ++ lengthPrefixed p.memoType else []) ++ (encMemoData ++
      (lengthPrefixed p.memoData ++ ((if p.memoFormat ≠ [] then encMemoFormat ++ lengthPrefixed p.memoFormat else []) ++
      (encEndOfObject ++ encEndOfArray))))) ((if p.memoType = [] then [] else [(7, 12, p.memoType)]) ++ ((7, 13, p.memoData) ::
      ((if p.memoFormat = [] then [] else [(7, 14, p.memoFormat)]) ++ [(14, 1, []), (15, 1, [])]))) := by
    by_cases c : p.memoType = []
    · rw [if_neg (by simpa using c), if_pos c]; exact pData
    · rw [if_pos c, if_neg c, List.append_assoc]
      exact Parses.one (x := 0x7c) 7 12 rfl rfl (by decide) (contentVL 7 (by simp) _ _ h1) pData
  have := Parses.one (x := 0xf9) 15 9 rfl rfl (by decide) (contentMarker 15 (by simp) _)
    (Parses.one (x := 0xea) 14 10 rfl rfl (by decide) (contentMarker 14 (by simp) _) pType)
  have e1 : encMemos = [0xf9] := by decide
  have e2 : encMemo = [0xea] := by decide
  rw [e1, e2]
  simpa only [List.append_assoc, List.cons_append, List.nil_append] using this

/-- The signature field. -/
def sigField : Option Bytes → Bytes
  | some s => encTxnSignature ++ lengthPrefixed s
  | none => []

theorem sigField_parse : ∀ (sig : Option Bytes) (_ : ∀ s ∈ sig, s.length ≤ 192) (b : Bytes) (l : List (Nat × Nat × Bytes)), Parses b l →
    Parses (sigField sig ++ b) (sigFields sig ++ l)
  | none, _, _, _, h => h
  | some s, hs, b, l, h => by
    simp only [sigField, List.append_assoc]
    exact Parses.one (x := 0x74) 7 4 rfl rfl (by decide) (contentVL 7 (by simp) s _ (hs s rfl)) h

/-- The whole transaction, with or without a signature. -/
theorem tx_parse (p : Payment) (pub acc dst : Bytes) (sig : Option Bytes) (h1 : p.memoType.length ≤ 192) (h2 : p.memoData.length ≤ 192)
    (h3 : p.memoFormat.length ≤ 192) (ha : p.amount.toNat < 2 ^ 62) (hf : p.fee.toNat < 2 ^ 62) (hp : pub.length = 33)
    (hacc : acc.length = 20) (hdst : dst.length = 20) (hs : ∀ s ∈ sig, s.length ≤ 192) :
    Parses ((encTransactionType ++ beBytes 2 0) ++ (encFlags ++ beBytes 4 0x80000000) ++ (encSequence ++ beBytes 4 p.sequence.toNat) ++
        destinationTagBytes p.destinationTag ++ (encLastLedgerSequence ++ beBytes 4 p.lastLedgerSequence.toNat) ++
        (encAmount ++ valueBytes p.amount) ++ (encFee ++ valueBytes p.fee) ++ (encSigningPubKey ++ lengthPrefixed pub) ++
        sigField sig ++
        ((encAccount ++ lengthPrefixed acc) ++ (encDestination ++ lengthPrefixed dst) ++
        memosBytes p.memoType p.memoData p.memoFormat))
      (payment p.sequence.toNat p.lastLedgerSequence.toNat p.amount.toNat p.fee.toNat (tagOf p) pub acc dst sig (memoOf p)) := by
  have p1 := memos_parse p h1 h2 h3
  have p2 := Parses.one (x := 0x81) 8 1 rfl rfl (by decide) (contentVL 8 (by simp) acc _ (by omega))
    (Parses.one (x := 0x83) 8 3 rfl rfl (by decide) (contentVL 8 (by simp) dst _ (by omega)) p1)
  have va : valueBytes p.amount = amount p.amount.toNat := by rw [value_eq, Nat.mod_eq_of_lt ha]
  have vf : valueBytes p.fee = amount p.fee.toNat := by rw [value_eq, Nat.mod_eq_of_lt hf]
  have p4 := Parses.one (x := 0x61) 6 1 rfl rfl (by decide) (contentAmount _ ha _)
    (Parses.one (x := 0x68) 6 8 rfl rfl (by decide) (contentAmount _ hf _)
      (Parses.one (x := 0x73) 7 3 rfl rfl (by decide) (contentVL 7 (by simp) pub _ (by omega)) (sigField_parse sig hs _ _ p2)))
  have p5 : ∀ b l, Parses b l → Parses ((0x20 : UInt8) :: 27 :: (beBytes 4 p.lastLedgerSequence.toNat ++ b))
      ((2, 27, beBytes 4 p.lastLedgerSequence.toNat) :: l) := fun b l h =>
    Parses.cons (r := beBytes 4 p.lastLedgerSequence.toNat ++ b) rfl (content32 _ _ (by simp)) (by simp; omega) h
  have p6 : ∀ b l, Parses b l → Parses (destinationTagBytes p.destinationTag ++ b)
      (tagFields (tagOf p) ++ l) := by
    intro b l h
    unfold destinationTagBytes tagOf
    by_cases c : p.destinationTag < 0
    · rw [if_pos c, if_pos c]
      exact h
    · rw [if_neg c, if_neg c, List.append_assoc]
      exact Parses.one (x := 0x2e) 2 14 rfl rfl (by decide) (content32 (beBytes 4 p.destinationTag.toInt.toNat) _ (by simp)) h
  have p7 := Parses.one (x := 0x12) 1 2 rfl rfl (by decide) (content16 (beBytes 2 0) _ (by simp))
    (Parses.one (x := 0x22) 2 2 rfl rfl (by decide) (content32 (beBytes 4 0x80000000) _ (by simp))
      (Parses.one (x := 0x24) 2 4 rfl rfl (by decide) (content32 (beBytes 4 p.sequence.toNat) _ (by simp)) (p6 _ _ (p5 _ _ p4))))
  rw [va, vf]
  have e1 : encTransactionType = [0x12] := by decide
  have e2 : encFlags = [0x22] := by decide
  have e3 : encSequence = [0x24] := by decide
  have e4 : encLastLedgerSequence = [0x20, 27] := by decide
  have e5 : encAmount = [0x61] := by decide
  have e6 : encFee = [0x68] := by decide
  have e7 : encSigningPubKey = [0x73] := by decide
  have e8 : encAccount = [0x81] := by decide
  have e9 : encDestination = [0x83] := by decide
  rw [e1, e2, e3, e4, e5, e6, e7, e8, e9]
  unfold payment
  simpa only [List.append_assoc, List.cons_append, List.nil_append] using p7

end Ripple
open Ripple

/-- C36 for memo texts of at most 192 bytes, amounts and fees below 2^62 drops and tags below 2^32. The text returned is the
hexadecimal serialisation with one character `s` at the place of the signature, and the serialisation consists of exactly the requested
fields in canonical order. -/
theorem C36_payment_partial (H : Hashes) (p : Payment) (text hash : Bytes) (h1 : p.memoType.length ≤ 192) (h2 : p.memoData.length ≤ 192)
    (h3 : p.memoFormat.length ≤ 192) (ha : p.amount.toNat < 2 ^ 62) (hf : p.fee.toNat < 2 ^ 62)
    (_ht : p.destinationTag.toInt < 2 ^ 32) (h : createEmptyRawTransactionAndHash H p = .ok (text, hash)) :
    ∃ a b pub acc dst, text = Hex.encode a ++ asc "s" ++ Hex.encode b ∧ Hex.decode p.pubkey = .ok pub ∧ IsAccount H p.from_ acc ∧
      IsAccount H p.to_ dst ∧ hash = Hex.encode ((H.hash .sha512 (asc "STX" ++ [0] ++ a ++ b)).take 32) ∧
      parse (a ++ b) = some (payment p.sequence.toNat p.lastLedgerSequence.toNat p.amount.toNat p.fee.toNat (tagOf p) pub acc dst
        none (memoOf p)) := by
  unfold createEmptyRawTransactionAndHash at h
  obtain ⟨t, ht, h⟩ := Res.bind_eq_ok.mp h
  obtain ⟨pub, acc, dst, s, _, _, g3, g4, g5, g6, _, _, g9, g10, _⟩ := newTxStruct_inv ht
  cases h
  refine ⟨t.pre, t.post, pub, acc, dst, rfl, g3, g5, g6, ?_, ?_⟩
  · unfold getHash toBytes
    have : signPrefix = asc "STX" ++ [0] := by decide
    rw [this]
    simp only [List.append_assoc, List.nil_append]
    rfl
  · have := tx_parse p pub acc dst none h1 h2 h3 ha hf g4 g5.1 g6.1 (by simp)
    rw [g9, g10]
    simpa only [sigField, List.append_nil] using this.parse

/-- Where C36 fails (a): tags are cut to 32 bits. -/
theorem C36_tag_violated (H : Hashes) (p : Payment) (t : Int64) (h0 : ¬ t < 0) (h1 : ¬ p.destinationTag < 0)
    (h : t.toInt.toNat % 2 ^ 32 = p.destinationTag.toInt.toNat % 2 ^ 32) :
    createEmptyRawTransactionAndHash H { p with destinationTag := t } = createEmptyRawTransactionAndHash H p := by
  have e : destinationTagBytes t = destinationTagBytes p.destinationTag := by
    unfold destinationTagBytes
    rw [if_neg h0, if_neg h1]
    have : ∀ n, beBytes 4 n = beBytes 4 (n % 2 ^ 32) := by
      intro n
      apply beNat_inj (by simp)
      rw [beNat_beBytes, beNat_beBytes]
      omega
    rw [this, h, ← this]
  unfold createEmptyRawTransactionAndHash newTxStruct
  simp only [e]

example : ¬ (4294967297 : Int64) < 0 ∧ (4294967297 : Int64).toInt.toNat % 2 ^ 32 = (1 : Int64).toInt.toNat % 2 ^ 32 := by decide

/-- Where C36 fails (b): amounts from 2^62 drops on are cut to 62 bits. -/
theorem C36_amount_violated (H : Hashes) (p : Payment) (a : UInt64) (h0 : a ≠ 0) (h1 : p.amount ≠ 0)
    (h : a.toNat % 2 ^ 62 = p.amount.toNat % 2 ^ 62) :
    createEmptyRawTransactionAndHash H { p with amount := a } = createEmptyRawTransactionAndHash H p := by
  have e : amountBytes encAmount a = amountBytes encAmount p.amount := by
    unfold amountBytes
    rw [if_neg h0, if_neg h1, value_eq, value_eq, h]
  unfold createEmptyRawTransactionAndHash newTxStruct
  simp only [e]

example : (2 ^ 62 + 1 : UInt64) ≠ 0 ∧ (2 ^ 62 + 1 : UInt64).toNat % 2 ^ 62 = (1 : UInt64).toNat % 2 ^ 62 := by decide +kernel

/-- Where C36 fails (c): with a memo of more than 192 bytes the serialisation is never read as the payment that was asked for. -/
theorem C36_long_memo_violated (H : Hashes) (p : Payment) (text hash : Bytes) (hm : 192 < p.memoData.length)
    (h : createEmptyRawTransactionAndHash H p = .ok (text, hash)) :
    ∃ a b pub acc dst, text = Hex.encode a ++ asc "s" ++ Hex.encode b ∧ Hex.decode p.pubkey = .ok pub ∧ IsAccount H p.from_ acc ∧
      IsAccount H p.to_ dst ∧
      parse (a ++ b) ≠ some (payment p.sequence.toNat p.lastLedgerSequence.toNat p.amount.toNat p.fee.toNat (tagOf p) pub acc dst
        none (memoOf p)) := by
  unfold createEmptyRawTransactionAndHash at h
  obtain ⟨t, ht, h⟩ := Res.bind_eq_ok.mp h
  obtain ⟨pub, acc, dst, s, _, _, g3, g4, g5, g6, _, _, g9, g10, _⟩ := newTxStruct_inv ht
  cases h
  refine ⟨t.pre, t.post, pub, acc, dst, rfl, g3, g5, g6, ?_⟩
  intro hp
  have hl := fields_length _ _ _ hp
  have hne : p.memoData ≠ [] := by intro h0; rw [h0] at hm; simp at hm
  have l1 := g5.1
  have l2 := g6.1
  have hA : ∀ n, (amount n).length = 8 := fun n => by simp [amount]
  have one : ∀ n, 1 ≤ lenSize n := fun n => by unfold lenSize; split
                                               · omega
                                               · split <;> omega
  have two : 2 ≤ lenSize p.memoData.length := by unfold lenSize; rw [if_neg (by omega)]; split <;> omega
  have hpre : t.pre.length = tagSize p + 72 := by
    rw [g9, value_eq, value_eq]
    unfold destinationTagBytes tagSize tagOf
    have e1 : encTransactionType = [0x12] := by decide
    have e2 : encFlags = [0x22] := by decide
    have e3 : encSequence = [0x24] := by decide
    have e4 : encLastLedgerSequence = [0x20, 27] := by decide
    have e5 : encAmount = [0x61] := by decide
    have e6 : encFee = [0x68] := by decide
    have e7 : encSigningPubKey = [0x73] := by decide
    have e8 : encDestinationTag = [0x2e] := by decide
    rw [e1, e2, e3, e4, e5, e6, e7, e8]
    by_cases c : p.destinationTag < 0 <;> simp [c, lengthPrefixed, g4, hA]
  have hpost : t.post.length = 44 + 4 + 1 + 1 + p.memoData.length + (if p.memoType = [] then 0 else 2 + p.memoType.length) +
      (if p.memoFormat = [] then 0 else 2 + p.memoFormat.length) := by
    rw [g10]
    unfold memosBytes
    rw [if_pos hne]
    have e1 : encAccount = [0x81] := by decide
    have e2 : encDestination = [0x83] := by decide
    have e3 : encMemos = [0xf9] := by decide
    have e4 : encMemo = [0xea] := by decide
    have e5 : encMemoType = [0x7c] := by decide
    have e6 : encMemoData = [0x7d] := by decide
    have e7 : encMemoFormat = [0x7e] := by decide
    have e8 : encEndOfObject = [0xe1] := by decide
    have e9 : encEndOfArray = [0xf1] := by decide
    rw [e1, e2, e3, e4, e5, e6, e7, e8, e9]
    by_cases c1 : p.memoType = [] <;> by_cases c2 : p.memoFormat = [] <;> simp [c1, c2, lengthPrefixed, l1, l2] <;> omega
  have hmin : tagSize p + 72 + (44 + 4 + 1 + 2 + p.memoData.length +
      (if p.memoType = [] then 0 else 2 + p.memoType.length) + (if p.memoFormat = [] then 0 else 2 + p.memoFormat.length)) ≤
      minSize (payment p.sequence.toNat p.lastLedgerSequence.toNat p.amount.toNat p.fee.toNat (tagOf p) pub acc dst none (memoOf p)) := by
    unfold payment memoOf
    rw [if_neg hne]
    unfold memoFields sigFields
    simp only [minSize_append]
    have m1 : minSize (if p.memoType = [] then [] else [(7, 12, p.memoType)]) ≥ (if p.memoType = [] then 0 else 2 + p.memoType.length) := by
      split
      · simp
      · have := one p.memoType.length
        simp only [minSize, idSize, contentSize]
        simp
        omega
    have m2 : minSize (if p.memoFormat = [] then [] else [(7, 14, p.memoFormat)]) ≥
        (if p.memoFormat = [] then 0 else 2 + p.memoFormat.length) := by
      split
      · simp
      · have := one p.memoFormat.length
        simp only [minSize, idSize, contentSize]
        simp
        omega
    have m3 : minSize [(7, 13, p.memoData)] ≥ 3 + p.memoData.length := by
      simp only [minSize, idSize, contentSize]
      simp
      omega
    have m4 : minSize (tagFields (tagOf p)) = tagSize p := by
      unfold tagSize tagFields
      cases tagOf p <;> simp [minSize, idSize, contentSize]
    have ls : ∀ n, n ≤ 192 → lenSize n = 1 := fun n hn => by unfold lenSize; rw [if_pos hn]
    have m5 : minSize [(1, 2, beBytes 2 0), (2, 2, beBytes 4 0x80000000), (2, 4, beBytes 4 p.sequence.toNat)] = 13 := by
      simp [minSize, idSize, contentSize]
    have m6 : minSize [(2, 27, beBytes 4 p.lastLedgerSequence.toNat), (6, 1, amount p.amount.toNat), (6, 8, amount p.fee.toNat), (7, 3, pub)] =
        59 := by
      simp [minSize, idSize, contentSize, hA, g4, ls]
    have m7 : minSize [(8, 1, acc), (8, 3, dst)] = 44 := by
      simp [minSize, idSize, contentSize, l1, l2, ls]
    have m8 : minSize [(15, 9, []), (14, 10, [])] = 2 := by simp [minSize, idSize, contentSize]
    have m9 : minSize [(14, 1, []), (15, 1, [])] = 2 := by simp [minSize, idSize, contentSize]
    have m10 : minSize [] = 0 := rfl
    rw [m4, m5, m6, m7, m8, m9, m10]
    omega
  rw [List.length_append, hpre, hpost] at hl
  omega

/-! ### Signing and combining -/

namespace Ripple

theorem digit_ne_s (b : UInt8) : Hex.digit (b / 16) ≠ 0x73 ∧ Hex.digit (b % 16) ≠ 0x73 := by
  revert b; apply Hex.u8_forall; decide +kernel

theorem replaceS_encode (b new : Bytes) : replaceS (Hex.encode b) new = Hex.encode b := by
  induction b with
  | nil => rfl
  | cons x xs ih =>
    unfold replaceS at ih ⊢
    have := digit_ne_s x
    simp only [Hex.encode, List.flatMap_cons, ih, if_neg this.1, if_neg this.2, List.cons_append, List.nil_append]

theorem replaceS_text (a b new : Bytes) : replaceS (Hex.encode a ++ asc "s" ++ Hex.encode b) new = Hex.encode a ++ new ++ Hex.encode b := by
  have h1 := replaceS_encode a new
  have h2 := replaceS_encode b new
  have hs : asc "s" = [0x73] := by decide
  unfold replaceS at *
  rw [List.flatMap_append, List.flatMap_append, h1, h2, hs]
  simp

theorem hashFromEmptyRaw_text (H : Hashes) (a b : Bytes) : hashFromEmptyRaw H (Hex.encode a ++ asc "s" ++ Hex.encode b) =
    .ok ((H.hash .sha512 (signPrefix ++ (a ++ b))).take 32) := by
  unfold hashFromEmptyRaw
  rw [replaceS_text, List.append_nil, ← Hex.encode_append, Hex.decode_encode]
  rfl

/-- The signature field of a 64-byte signature. -/
theorem txnSignature_ok (text sig : Bytes) (hd : Hex.decode text = .ok sig) (hl : sig.length = 64) (hr : beNat (sig.take 32) ≠ 0)
    (hs : beNat (sig.drop 32) ≠ 0) : ∃ R S, Spec.IsDerInt R (beNat (sig.take 32)) ∧ Spec.IsDerInt S (beNat (sig.drop 32)) ∧
      (Spec.derSig R S).length ≤ 72 ∧ txnSignatureBytes text = .ok (sigField (some (Spec.derSig R S))) := by
  obtain ⟨R, h1, h2, h3⟩ := Btc.derBody_spec (sig.take 32) (by simp; omega) hr
  obtain ⟨S, k1, k2, k3⟩ := Btc.derBody_spec (sig.drop 32) (by simp; omega) hs
  refine ⟨R, S, h2, k2, by simp [Spec.derSig]; omega, ?_⟩
  unfold txnSignatureBytes
  rw [hd]
  simp only
  rw [if_neg (by omega)]
  unfold signatureBytes
  rw [h1, k1]
  simp only [Res.bind_ok]
  simp [sigField, lengthPrefixed, Spec.derSig]

end Ripple

/-- C37 (a): the hash returned for signing is the one that is verified later: combining reports success if and only if the signature
verifies, under the key given, for the returned hash (and then never panics if r and s are non-zero). -/
theorem C37_hash (H : Hashes) (C : Btc.Curve) (p : Payment) (text hash sigText sig pubText pub : Bytes)
    (h : createEmptyRawTransactionAndHash H p = .ok (text, hash)) (hs : Hex.decode sigText = .ok sig) (hl : sig.length = 64)
    (hr : beNat (sig.take 32) ≠ 0) (hs' : beNat (sig.drop 32) ≠ 0) (hp : Hex.decode pubText = .ok pub) (hc : C.decompress pub ≠ []) :
    ∃ hb r, Hex.decode hash = .ok hb ∧ verifyAndCombine H C text sigText pubText = .ok (C.verify ((C.decompress pub).drop 1) hb sig, r) := by
  unfold createEmptyRawTransactionAndHash at h
  obtain ⟨t, ht, h⟩ := Res.bind_eq_ok.mp h
  cases h
  obtain ⟨R, S, _, _, _, hsig⟩ := txnSignature_ok sigText sig hs hl hr hs'
  unfold verifyAndCombine
  rw [show toEmptyRawWiths t = Hex.encode t.pre ++ asc "s" ++ Hex.encode t.post from rfl, hashFromEmptyRaw_text]
  have e : getHash H t = (H.hash .sha512 (signPrefix ++ (t.pre ++ t.post))).take 32 := by
    unfold getHash toBytes
    rw [List.append_nil]
    rfl
  rw [← e]
  simp only [hp, hs, if_neg hc, hsig, Hex.decode_encode]
  by_cases c : C.verify ((C.decompress pub).drop 1) (getHash H t) sig = false
  · rw [if_pos c]
    exact ⟨_, _, rfl, by rw [c]⟩
  · rw [if_neg c]
    exact ⟨_, _, rfl, by rw [Bool.not_eq_false] at c; rw [c]⟩

/-- What ECDSA verification accepts: pairs of numbers of 32 bytes each, neither of which is zero. -/
def Ripple.EcdsaSizes (C : Btc.Curve) : Prop :=
  ∀ pub msg sig, C.verify pub msg sig = true → sig.length = 64 ∧ beNat (sig.take 32) ≠ 0 ∧ beNat (sig.drop 32) ≠ 0

/-- C37 (b), all payments, signatures and keys: after success the result is the serialisation of the same payment with the signature field (type 7,
field 4, length, strict DER form of r and s) in the place that was left open, which is also what the package serialises for this payment and
signature directly; the signature verifies for the hash of the bytes around it. -/
theorem C37_combine (H : Hashes) (C : Btc.Curve) (hC : EcdsaSizes C) (p : Payment) (text hash sigText pubText out : Bytes)
    (h : createEmptyRawTransactionAndHash H p = .ok (text, hash)) (hv : verifyAndCombine H C text sigText pubText = .ok (true, out)) :
    ∃ sig pub pre post R S t, Hex.decode sigText = .ok sig ∧ Hex.decode pubText = .ok pub ∧
      Spec.IsDerInt R (beNat (sig.take 32)) ∧ Spec.IsDerInt S (beNat (sig.drop 32)) ∧ text = Hex.encode pre ++ asc "s" ++ Hex.encode post ∧
      hash = Hex.encode ((H.hash .sha512 ([0x53, 0x54, 0x58, 0x00] ++ pre ++ post)).take 32) ∧
      C.verify ((C.decompress pub).drop 1) ((H.hash .sha512 ([0x53, 0x54, 0x58, 0x00] ++ pre ++ post)).take 32) sig = true ∧
      out = Hex.encode (pre ++ [0x74, UInt8.ofNat (Spec.derSig R S).length] ++ Spec.derSig R S ++ post) ∧
      newTxStruct H p sigText = .ok t ∧ out = Hex.encode (toBytes t) := by
  unfold createEmptyRawTransactionAndHash at h
  obtain ⟨t, ht, h⟩ := Res.bind_eq_ok.mp h
  cases h
  have hpre : signPrefix = [0x53, 0x54, 0x58, 0x00] := by decide
  unfold verifyAndCombine at hv
  rw [show toEmptyRawWiths t = Hex.encode t.pre ++ asc "s" ++ Hex.encode t.post from rfl, hashFromEmptyRaw_text] at hv
  simp only at hv
  split at hv
  · rename_i pub hp
    split at hv
    · rename_i sig hs
      split at hv
      · cases hv
      split at hv
      · cases hv
      rename_i _ hver
      rw [Bool.not_eq_false] at hver
      obtain ⟨hl, hr, hs'⟩ := hC _ _ _ hver
      obtain ⟨R, S, d1, d2, d3, hsig⟩ := txnSignature_ok sigText sig hs hl hr hs'
      have hne : sigText ≠ [] := by
        rintro rfl
        simp [Hex.decode] at hs
        subst hs
        simp at hl
      obtain ⟨key, acc, dst, s, _, _, g3, g4, g5, g6, _, _, g9, g10, g11⟩ := newTxStruct_inv ht
      have hn := g11 sigText
      unfold optionalSignature at hn
      rw [if_pos hne, hsig] at hn
      rw [hsig] at hv
      simp only [Res.ok.injEq, Prod.mk.injEq, true_and] at hv
      have ho : out = Hex.encode (t.pre ++ sigField (some (Spec.derSig R S)) ++ t.post) := by
        rw [← hv, replaceS_text, Hex.encode_append, Hex.encode_append]
      have hf : sigField (some (Spec.derSig R S)) = [0x74, UInt8.ofNat (Spec.derSig R S).length] ++ Spec.derSig R S := by
        have : encTxnSignature = [0x74] := by decide
        simp [sigField, lengthPrefixed, this]
      refine ⟨sig, pub, t.pre, t.post, R, S, _, hs, hp, d1, d2, rfl, ?_, ?_, ?_, hn, ho⟩
      · unfold getHash toBytes
        rw [List.append_nil, hpre, List.append_assoc]
        rfl
      · rw [List.append_assoc, ← hpre]
        exact hver
      · rw [ho, hf]
        simp
    · cases hv
    · cases hv
  · cases hv
  · cases hv

/-- C37 (c): within the bounds of C36, outside of which already the unsigned transaction is not in the format of the ledger, a reader of that format finds
in the result the payment with the signature. -/
theorem C37_combine_read (H : Hashes) (C : Btc.Curve) (p : Payment) (text hash sigText sig pubText pub out : Bytes)
    (h1 : p.memoType.length ≤ 192) (h2 : p.memoData.length ≤ 192) (h3 : p.memoFormat.length ≤ 192)
    (ha : p.amount.toNat < 2 ^ 62) (hf : p.fee.toNat < 2 ^ 62) (_ht : p.destinationTag.toInt < 2 ^ 32)
    (h : createEmptyRawTransactionAndHash H p = .ok (text, hash)) (hs : Hex.decode sigText = .ok sig) (hl : sig.length = 64)
    (hr : beNat (sig.take 32) ≠ 0) (hs' : beNat (sig.drop 32) ≠ 0) (hp : Hex.decode pubText = .ok pub)
    (hv : verifyAndCombine H C text sigText pubText = .ok (true, out)) :
    ∃ b t R S key acc dst, out = Hex.encode b ∧ newTxStruct H p sigText = .ok t ∧ b = toBytes t ∧
      Spec.IsDerInt R (beNat (sig.take 32)) ∧ Spec.IsDerInt S (beNat (sig.drop 32)) ∧
      Hex.decode p.pubkey = .ok key ∧ IsAccount H p.from_ acc ∧ IsAccount H p.to_ dst ∧
      parse b = some (payment p.sequence.toNat p.lastLedgerSequence.toNat p.amount.toNat p.fee.toNat (tagOf p) key acc dst
        (some (Spec.derSig R S)) (memoOf p)) := by
  unfold createEmptyRawTransactionAndHash at h
  obtain ⟨t, ht, h⟩ := Res.bind_eq_ok.mp h
  cases h
  obtain ⟨key, acc, dst, s, _, _, g3, g4, g5, g6, _, _, g9, g10, g11⟩ := newTxStruct_inv ht
  obtain ⟨R, S, d1, d2, d3, hsig⟩ := txnSignature_ok sigText sig hs hl hr hs'
  have hne : sigText ≠ [] := by
    rintro rfl
    simp [Hex.decode] at hs
    subst hs
    simp at hl
  have hn := g11 sigText
  unfold optionalSignature at hn
  rw [if_pos hne, hsig] at hn
  refine ⟨t.pre ++ sigField (some (Spec.derSig R S)) ++ t.post, _, R, S, key, acc, dst, ?_, hn, rfl, d1, d2, g3, g5, g6, ?_⟩
  · unfold verifyAndCombine at hv
    rw [show toEmptyRawWiths t = Hex.encode t.pre ++ asc "s" ++ Hex.encode t.post from rfl, hashFromEmptyRaw_text] at hv
    simp only [hp, hs, hsig] at hv
    split at hv
    · cases hv
    split at hv
    · cases hv
    simp only [Res.ok.injEq, Prod.mk.injEq, true_and] at hv
    rw [← hv, replaceS_text, Hex.encode_append, Hex.encode_append]
  · have := tx_parse p key acc dst (some (Spec.derSig R S)) h1 h2 h3 ha hf g4 g5.1 g6.1 (by simp; omega)
    rw [g9, g10]
    exact this.parse

/-- C67, the part that holds, for all payments, signatures and keys: success means that the signature is valid for the hash that was returned for
signing, under the key passed to the call; so the property holds of callers that pass the key named inside the transaction. Missing: the function
does not compare the two keys (next theorem). -/
theorem C67_named_key_partial (H : Hashes) (C : Btc.Curve) (p : Payment) (text hash sigText pubText out : Bytes)
    (h : createEmptyRawTransactionAndHash H p = .ok (text, hash)) (hv : verifyAndCombine H C text sigText pubText = .ok (true, out)) :
    ∃ key pub sig hb, Hex.decode p.pubkey = .ok key ∧ Hex.decode pubText = .ok pub ∧ Hex.decode sigText = .ok sig ∧ Hex.decode hash = .ok hb ∧
      C.verify ((C.decompress pub).drop 1) hb sig = true ∧
      (Hex.decode pubText = Hex.decode p.pubkey → C.verify ((C.decompress key).drop 1) hb sig = true) := by
  unfold createEmptyRawTransactionAndHash at h
  obtain ⟨t, ht, h⟩ := Res.bind_eq_ok.mp h
  cases h
  obtain ⟨key, acc, dst, s, _, _, g3, _⟩ := newTxStruct_inv ht
  unfold verifyAndCombine at hv
  rw [show toEmptyRawWiths t = Hex.encode t.pre ++ asc "s" ++ Hex.encode t.post from rfl, hashFromEmptyRaw_text] at hv
  have e : getHash H t = (H.hash .sha512 (signPrefix ++ (t.pre ++ t.post))).take 32 := by
    unfold getHash toBytes
    rw [List.append_nil]
    rfl
  rw [← e] at hv
  simp only at hv
  cases hp : Hex.decode pubText with
  | err => rw [hp] at hv; cases hv
  | panic => rw [hp] at hv; cases hv
  | ok pub =>
    rw [hp] at hv
    cases hs : Hex.decode sigText with
    | err => rw [hs] at hv; cases hv
    | panic => rw [hs] at hv; cases hv
    | ok sig =>
      rw [hs] at hv
      simp only at hv
      split at hv
      · cases hv
      split at hv
      · cases hv
      rename_i hc
      rw [Bool.not_eq_false] at hc
      refine ⟨key, pub, sig, _, g3, rfl, rfl, Hex.decode_encode _, hc, ?_⟩
      intro heq
      rw [g3] at heq
      cases heq
      exact hc

/-- C67 is false: the key used for verification is not compared with the key in the transaction. Whatever key the transaction
names, a valid signature by any other key is combined into it and reported as a success. -/
theorem C67_foreign_key_violated (H : Hashes) (C : Btc.Curve) (p : Payment) (text hash sigText sig pubText pub : Bytes)
    (h : createEmptyRawTransactionAndHash H p = .ok (text, hash)) (hs : Hex.decode sigText = .ok sig) (hl : sig.length = 64)
    (hr : beNat (sig.take 32) ≠ 0) (hs' : beNat (sig.drop 32) ≠ 0) (hp : Hex.decode pubText = .ok pub) (hc : C.decompress pub ≠ [])
    (_hother : ¬ ∃ key, Hex.decode p.pubkey = .ok key ∧ key = pub)
    (hv : ∀ hb, Hex.decode hash = .ok hb → C.verify ((C.decompress pub).drop 1) hb sig = true) :
    ∃ out, verifyAndCombine H C text sigText pubText = .ok (true, out) := by
  obtain ⟨hb, r, e1, e2⟩ := C37_hash H C p text hash sigText sig pubText pub h hs hl hr hs' hp hc
  exact ⟨r, by rw [e2, hv hb e1]⟩

/-! A payment meeting the hypotheses (the address checksums are those of the toy hash). -/

namespace Ripple
def demo : Payment :=
  { from_ := asc "rrrrrrrrrrrrrrrrrrrrrBRG1x"
    pubkey := Hex.encode (2 :: List.replicate 32 7)
    destinationTag := 1234
    sequence := 1
    to_ := asc "rFmuWZgVh8JVH25oTf9wBVXxUGYMMSCxa"
    amount := 2000000000
    fee := 10000
    lastLedgerSequence := 353535
    memoType := asc "client"
    memoData := asc "111"
    memoFormat := [] }
def demoCurve : Btc.Curve := ⟨fun b => b, fun _ _ _ => true⟩
/-- Accepts one signature. -/
def oneSigCurve : Btc.Curve := ⟨fun b => b, fun _ _ s => s = List.replicate 64 1⟩
end Ripple

-- the hypotheses of `C37_combine` can be met
set_option maxRecDepth 4000 in
example : EcdsaSizes oneSigCurve ∧ ∃ text hash, createEmptyRawTransactionAndHash toyHashes demo = .ok (text, hash) ∧
    ∃ out, verifyAndCombine toyHashes oneSigCurve text (Hex.encode (List.replicate 64 1)) (Hex.encode (3 :: List.replicate 32 7)) = .ok (true, out) := by
  refine ⟨?_, ?_⟩
  · intro pub msg sig h
    have : sig = List.replicate 64 1 := by simpa [oneSigCurve] using h
    subst this
    exact ⟨rfl, by decide +kernel, by decide +kernel⟩
  · have h1 : (createEmptyRawTransactionAndHash toyHashes demo).isOk = true := by decide +kernel
    cases h : createEmptyRawTransactionAndHash toyHashes demo with
    | ok v =>
      obtain ⟨hb, out, e1, e2⟩ := C37_hash toyHashes oneSigCurve demo v.1 v.2 (Hex.encode (List.replicate 64 1)) (List.replicate 64 1)
        (Hex.encode (3 :: List.replicate 32 7)) (3 :: List.replicate 32 7) h (Hex.decode_encode _) rfl (by decide +kernel)
        (by decide +kernel) (Hex.decode_encode _) (by simp [oneSigCurve])
      exact ⟨v.1, v.2, rfl, out, by rw [e2]; simp [oneSigCurve]⟩
    | err => rw [h] at h1; cases h1
    | panic => rw [h] at h1; cases h1

set_option maxRecDepth 4000 in
example : ∃ text hash out, createEmptyRawTransactionAndHash toyHashes demo = .ok (text, hash) ∧
    createEmptyRawTransactionAndHash toyHashes { demo with memoData := List.replicate 193 5 } ≠ .err ∧
    verifyAndCombine toyHashes demoCurve text (Hex.encode (List.replicate 64 1)) (Hex.encode (3 :: List.replicate 32 7)) = .ok (true, out) := by
  have h1 : (createEmptyRawTransactionAndHash toyHashes demo).isOk = true := by decide +kernel
  have h2 : createEmptyRawTransactionAndHash toyHashes { demo with memoData := List.replicate 193 5 } ≠ .err := by decide +kernel
  cases h : createEmptyRawTransactionAndHash toyHashes demo with
  | ok v =>
    obtain ⟨out, ho⟩ := C67_foreign_key_violated toyHashes demoCurve demo v.1 v.2 (Hex.encode (List.replicate 64 1)) (List.replicate 64 1)
      (Hex.encode (3 :: List.replicate 32 7)) (3 :: List.replicate 32 7) h (Hex.decode_encode _) rfl (by decide +kernel)
      (by decide +kernel) (Hex.decode_encode _) (by decide) (by
        rintro ⟨key, h1, rfl⟩
        have : Hex.decode demo.pubkey = .ok (2 :: List.replicate 32 7) := Hex.decode_encode _
        rw [this] at h1
        cases h1) (fun _ _ => rfl)
    exact ⟨v.1, v.2, out, rfl, h2, ho⟩
  | err => rw [h] at h1; cases h1
  | panic => rw [h] at h1; cases h1

end Verif
