import Verif.Lemmas.Wayki
import Verif.Props.BtcTx

/-! C41, C42, C43, C70: WaykiChain transactions. -/

namespace Verif
open Verif.Wayki Verif.Spec Verif.Spec.Wicc

/-! ### C41 -/

/-- C41 for the numbers that are not negative: the chain reads back the number and stops there. -/
theorem C41_roundtrip_partial (n : Int) (h : 0 ≤ n) (rest : Bytes) : varInt (int64ToUvarint n ++ rest) = some (n.toNat, rest) :=
  varInt_ok h rest

/-- ... hence different numbers have different encodings, and none is the beginning of another. -/
theorem C41_prefix_free_partial (m n : Int) (hm : 0 ≤ m) (hn : 0 ≤ n) (a b : Bytes)
    (h : int64ToUvarint m ++ a = int64ToUvarint n ++ b) : m = n ∧ a = b := by
  have e1 := varInt_ok hm a
  have e2 := varInt_ok hn b
  rw [h, e2] at e1
  simp only [Option.some.injEq, Prod.mk.injEq] at e1
  exact ⟨by omega, e1.2.symm⟩

example : int64ToUvarint 100000 = [0x85, 0x8c, 0x20] := by decide +kernel

/-- Where C41 fails: a negative number (accepted as amount and as fee) is encoded like its remainder modulo 128; -1 like 127. -/
theorem C41_negative_violated (n : Int) (h : n < 0) (rest : Bytes) :
    varInt (int64ToUvarint n ++ rest) = some ((n % 128).toNat, rest) ∧ int64ToUvarint n = int64ToUvarint (n % 128) := by
  refine ⟨?_, varInt_neg h⟩
  rw [varInt_neg h]
  exact varInt_ok (by omega) rest

/-! ### C43 -/

/-- C43 in general: a register id text `h-i` is accepted, and denotes `h-i` with each number cut at 2^63 - 1. -/
theorem C43_regid_general (t : Bytes) (h i : Nat) (ht : SpellsRegId t h i) (rest : Bytes) :
    isRegIdStr t = true ∧ regId (regIdBytes t ++ rest) = some ((min h (2 ^ 63 - 1), min i (2 ^ 63 - 1)), rest) := by
  obtain ⟨a, b, rfl, ha0, hb0, ha, hb, rfl, rfl⟩ := ht
  have hm := regId_matches (w := []) (v := []) (by simp) (by simp) ha hb ha0 hb0
  rw [List.nil_append, List.append_nil] at hm
  refine ⟨hm, ?_⟩
  rw [regIdBytes_two (digits_nodash ha) (digits_nodash hb), parseInt_digits ha ha0, parseInt_digits hb hb0,
    regId_ok (by omega) (by omega) (by omega) (by omega)]
  rfl

/-- C43 for numbers that fit 63 bits. -/
theorem C43_regid_partial (t : Bytes) (h i : Nat) (ht : SpellsRegId t h i) (hh : h < 2 ^ 63) (hi : i < 2 ^ 63) (rest : Bytes) :
    isRegIdStr t = true ∧ regId (regIdBytes t ++ rest) = some ((h, i), rest) := by
  obtain ⟨h1, h2⟩ := C43_regid_general t h i ht rest
  refine ⟨h1, ?_⟩
  rw [h2, Nat.min_eq_left (by omega), Nat.min_eq_left (by omega)]

example : SpellsRegId (asc "423318-1") 423318 1 :=
  ⟨asc "423318", asc "1", by decide +kernel, by decide +kernel, by decide +kernel, by decide +kernel, by decide +kernel, by decide +kernel,
    by decide +kernel⟩

/-- Exactly these texts pass the check: white space, a register id, white space. -/
theorem C43_accepted (t : Bytes) : isRegIdStr t = true ↔
    ∃ w core v h i, t = w ++ core ++ v ∧ SpellsRegId core h i ∧ (∀ c ∈ w ++ v, c ∈ asc " \t\n\r" ++ [0x0c]) := by
  have sp : ∀ c : UInt8, isSpace c = true ↔ c ∈ asc " \t\n\r" ++ [0x0c] := by
    apply Hex.u8_forall
    decide +kernel
  constructor
  · intro h
    obtain ⟨w, a, b, v, rfl, hw, hv, ha, hb, ha0, hb0⟩ := regId_matched h
    exact ⟨w, _, v, _, _, rfl, ⟨a, b, rfl, ha0, hb0, ha, hb, rfl, rfl⟩,
      fun c hc => (sp c).mp ((List.mem_append.mp hc).elim (hw c) (hv c))⟩
  · rintro ⟨w, core, v, h, i, rfl, ⟨a, b, rfl, ha0, hb0, ha, hb, -, -⟩, hs⟩
    exact regId_matches (fun c hc => (sp c).mpr (hs c (by simp [hc]))) (fun c hc => (sp c).mpr (hs c (by simp [hc]))) ha hb ha0 hb0

/-- The check is applied to the source of every base-coin transfer and contract call that is created. -/
theorem C43_source_checked (H : Hashes) (f t a : Bytes) (amount fee height : Int) (ty : UInt8) (hty : ty = 3 ∨ ty = 4)
    (hok : (create H f t a amount fee height ty).isOk = true) : isRegIdStr f = true ∧ (ty = 4 → isRegIdStr a = true) := by
  unfold create newTx at hok
  rcases hty with rfl | rfl
  · rw [if_pos rfl] at hok
    unfold newCommonTx at hok
    by_cases h : isRegIdStr f = true
    · exact ⟨h, fun h => absurd h (by decide)⟩
    · rw [if_pos (c := isRegIdStr f = false) (by simpa using h)] at hok
      repeat' split at hok
      all_goals cases hok
  · rw [if_neg (by decide), if_neg (by decide), if_pos rfl] at hok
    unfold newCallContractTx at hok
    by_cases h : isRegIdStr f = true
    · by_cases h' : isRegIdStr a = true
      · exact ⟨h, fun _ => h'⟩
      · rw [if_pos (c := isRegIdStr a = false) (by simpa using h')] at hok
        repeat' split at hok
        all_goals cases hok
    · rw [if_pos (c := isRegIdStr f = false) (by simpa using h)] at hok
      repeat' split at hok
      all_goals cases hok

/-- Where C43 fails (a): numbers of 2^63 and more are accepted and replaced by 2^63 - 1. -/
theorem C43_overflow_violated (t : Bytes) (h i : Nat) (ht : SpellsRegId t h i) (hh : 2 ^ 63 ≤ h) (rest : Bytes) :
    isRegIdStr t = true ∧ ∃ j, regId (regIdBytes t ++ rest) = some ((2 ^ 63 - 1, j), rest) := by
  obtain ⟨h1, h2⟩ := C43_regid_general t h i ht rest
  refine ⟨h1, min i (2 ^ 63 - 1), ?_⟩
  rw [h2, Nat.min_eq_right (by omega)]

/-- Where C43 fails (b): with white space in front the first number is replaced by 0 (and with white space behind, the second). -/
theorem C43_space_violated (t : Bytes) (h i : Nat) (ht : SpellsRegId t h i) (hi : i < 2 ^ 63) (rest : Bytes) :
    isRegIdStr (asc " " ++ t) = true ∧ regId (regIdBytes (asc " " ++ t) ++ rest) = some ((0, i), rest) := by
  obtain ⟨a, b, rfl, ha0, hb0, ha, hb, -, rfl⟩ := ht
  have hsp : ∀ c ∈ asc " ", isSpace c = true := by decide +kernel
  have hm := regId_matches (w := asc " ") (v := []) hsp (by simp) ha hb ha0 hb0
  rw [List.append_nil] at hm
  refine ⟨hm, ?_⟩
  have e : asc " " ++ (a ++ asc "-" ++ b) = (0x20 :: a) ++ asc "-" ++ b := by simp [asc]
  have hn : (0x2d : UInt8) ∉ 0x20 :: a := by
    simp only [List.mem_cons, not_or]
    exact ⟨by decide, digits_nodash ha⟩
  rw [e, regIdBytes_two hn (digits_nodash hb), parseInt_space (c := 0x20) (by decide) rfl, parseInt_digits hb hb0,
    regId_ok (by omega) (by omega) (by omega) (by omega)]
  simp only [Int.toNat_natCast]
  rw [Nat.min_eq_left (by omega)]
  rfl

namespace Wayki

/-- A WaykiChain address: Base58Check of twenty bytes with the prefix of the main or the test network. -/
def IsAddress (H : Hashes) (text h : Bytes) : Prop :=
  h.length = 20 ∧ ∃ ver, (ver = 0x49 ∨ ver = 0x87) ∧ IsBase58Check H Btc.alphabet [ver] h text

theorem programHash_iff (H : Hashes) (addr h : Bytes) : programHash H addr = .ok h ↔ IsAddress H addr h := by
  unfold IsAddress IsBase58Check
  constructor
  · intro hd
    unfold programHash at hd
    split at hd
    · rename_i ret hret
      split at hd
      · cases hd
      rename_i hl
      split at hd
      · cases hd
      rename_i hck
      split at hd
      · cases hd
      rename_i hp
      cases hd
      simp only [ne_eq, not_not] at hl hck
      cases ret with
      | nil => simp at hl
      | cons v r =>
        have hv : v = 0x49 ∨ v = 0x87 := by
          simp only [List.head?_cons, Option.some.injEq, ne_eq, not_and_or, not_not] at hp
          exact hp
        refine ⟨by simp at hl ⊢; omega, v, hv, ?_⟩
        have e : [v] ++ ((v :: r).take 21).drop 1 = (v :: r).take 21 := by simp
        rw [e, hck, List.take_append_drop]
        exact (Addr.encode_iff Btc.alphabet_ok _ _).mp (C02_base58_canonical _ Btc.alphabet_ok _ _ hret)
    · cases hd
    · cases hd
  · rintro ⟨hl, v, hv, hb⟩
    obtain ⟨t, h1, h2, h3⟩ := C01_base58_roundtrip _ Btc.alphabet_ok ([v] ++ h ++ (H.hash .doubleSha256 ([v] ++ h)).take 4)
    have ht : t = addr := by
      have := (Addr.encode_iff Btc.alphabet_ok _ _).mpr hb
      rw [h1] at this
      exact Res.ok.inj this
    rw [ht] at h3
    have hck : ((H.hash .doubleSha256 ([v] ++ h)).take 4).length = 4 := by
      rw [List.length_take, H.size]; rfl
    unfold programHash
    rw [h3]
    simp only
    generalize hck' : (H.hash .doubleSha256 ([v] ++ h)).take 4 = ck at *
    have hvl : ([v] ++ h).length = 21 := by simp [hl]
    rw [if_neg (by simp [hl, hck]), List.take_left' hvl, List.drop_left' hvl, if_neg (by simp only [ne_eq, not_not]; exact hck'), if_neg]
    · rfl
    · simp only [List.cons_append, List.head?_cons, Option.some.injEq, ne_eq]
      tauto

end Wayki

theorem Wayki.parseInt_lt (t : Bytes) : parseInt t < 2 ^ 63 := by
  unfold parseInt
  simp only
  generalize (if t.head? == some 0x2d || t.head? == some 0x2b then t.drop 1 else t) = d
  generalize (t.head? == some 0x2d) = neg
  by_cases hd : d = []
  · rw [if_pos hd]; omega
  rw [if_neg hd]
  cases parseUintLoop 0 d with
  | none => exact (by decide : (0 : Int) < 2 ^ 63)
  | some un =>
    simp only
    by_cases hb : neg = true
    · rw [if_neg (by simp [hb])]
      split <;> omega
    · by_cases hu : 2 ^ 63 ≤ un
      · rw [if_pos ⟨by simpa using hb, hu⟩]; omega
      · rw [if_neg (fun h => hu h.2), if_neg (fun h => hb h.1), if_neg hb]; omega

/-- Where C43 fails (c): for a transfer of another coin the source is not checked at all. A text without "-" is accepted, and the chain
cannot read the result as a register id. -/
theorem C43_unchecked_violated (H : Hashes) (t to_ coin h : Bytes) (amount fee height : Int) (ht : (0x2d : UInt8) ∉ t)
    (ha : IsAddress H to_ h) (hc : coin ≠ []) (hh : 0 ≤ height) (rest : Bytes) :
    (create H t to_ coin amount fee height 0x0B).isOk = true ∧ regId (regIdBytes t ++ rest) = none := by
  constructor
  · unfold create newTx newUcoinTransferTx
    rw [if_neg (by decide), if_neg (by decide), if_neg (by decide), if_pos rfl, if_neg (by omega), (programHash_iff H _ _).mpr ha]
    simp only [Res.bind_ok]
    rw [if_neg hc]
    rfl
  · unfold regIdBytes
    rw [split_nodash ht]
    simp only [List.flatMap_cons, List.flatMap_nil, List.append_nil]
    have hlt : parseInt t < 2 ^ 63 := parseInt_lt t
    unfold regId
    rw [vec_ok (by have := uvarint_length hlt; omega)]
    simp only [Option.bind_some]
    have key : ∃ n, varInt (int64ToUvarint (parseInt t)) = some (n, []) := by
      by_cases h0 : 0 ≤ parseInt t
      · have := varInt_ok h0 []
        rw [List.append_nil] at this
        exact ⟨_, this⟩
      · have := varInt_ok (n := parseInt t % 128) (by omega) []
        rw [List.append_nil, ← varInt_neg (by omega)] at this
        exact ⟨_, this⟩
    obtain ⟨n, hn⟩ := key
    rw [hn]
    rfl

/-! ### C42 -/

namespace Wayki

theorem newTx_shape {H : Hashes} {f t a : Bytes} {am fe he : Int} {ty : UInt8} {tx : Tx} (h : newTx H f t a am fe he ty = .ok tx) :
    tx.txType = ty ∧ tx.version = [1] ∧ (ty = 3 ∨ ty = 2 ∨ ty = 4 ∨ ty = 11) := by
  unfold newTx at h
  split at h
  · rename_i hty
    unfold newCommonTx at h
    split at h
    · cases h
    split at h
    · cases h
    obtain ⟨d, -, h⟩ := Res.bind_eq_ok.mp h
    cases h
    exact ⟨hty.symm, uvarint_one, Or.inl hty⟩
  split at h
  · rename_i hty
    unfold newRegisterAccountTx at h
    split at h
    · cases h
    split at h
    · split at h
      · cases h
      · cases h
        exact ⟨hty.symm, uvarint_one, by simp [hty]⟩
    · cases h
    · cases h
  split at h
  · rename_i hty
    unfold newCallContractTx at h
    split at h
    · cases h
    split at h
    · cases h
    split at h
    · cases h
    obtain ⟨d, -, h⟩ := Res.bind_eq_ok.mp h
    cases h
    exact ⟨hty.symm, uvarint_one, by simp [hty]⟩
  split at h
  · rename_i hty
    unfold newUcoinTransferTx at h
    split at h
    · cases h
    obtain ⟨d, -, h⟩ := Res.bind_eq_ok.mp h
    split at h
    · cases h
    cases h
    exact ⟨hty.symm, uvarint_one, by simp [hty]⟩
  · cases h

theorem create_ok {H : Hashes} {f t a : Bytes} {am fe he : Int} {ty : UInt8} {text hash : Bytes}
    (h : create H f t a am fe he ty = .ok (text, hash)) :
    ∃ rest, text = Hex.encode (ty :: 1 :: rest) ∧ hash = Hex.encode (H.hash .doubleSha256 (1 :: ty :: rest)) ∧
      (ty = 3 ∨ ty = 2 ∨ ty = 4 ∨ ty = 11) := by
  unfold create at h
  obtain ⟨tx, h1, h⟩ := Res.bind_eq_ok.mp h
  cases h
  obtain ⟨a1, a2, a3⟩ := newTx_shape h1
  obtain ⟨x, v, r⟩ := tx
  simp only at a1 a2
  subst a1 a2
  exact ⟨r, rfl, rfl, a3⟩

theorem hashFromEmptyRaw_eq {H : Hashes} {ty : UInt8} {rest : Bytes} (h : ty = 3 ∨ ty = 2 ∨ ty = 4 ∨ ty = 11) :
    hashFromEmptyRaw H (Hex.encode (ty :: 1 :: rest)) = .ok (H.hash .doubleSha256 (1 :: ty :: rest)) := by
  unfold hashFromEmptyRaw
  rw [Hex.decode_encode]
  simp only
  rw [if_neg]
  rcases h with rfl | rfl | rfl | rfl <;> decide

theorem sigBytes_ok {sig : Bytes} (hl : sig.length = 64) (hr : beNat (sig.take 32) ≠ 0) (hs : beNat (sig.drop 32) ≠ 0) :
    ∃ R S, IsDerInt R (beNat (sig.take 32)) ∧ IsDerInt S (beNat (sig.drop 32)) ∧
      sigBytes sig = .ok (UInt8.ofNat (derSig R S).length :: derSig R S) := by
  obtain ⟨R, r1, r2, -⟩ := Btc.derBody_spec _ (by simp [hl]) hr
  obtain ⟨S, s1, s2, -⟩ := Btc.derBody_spec (sig.drop 32) (by simp [hl]) hs
  refine ⟨R, S, r2, s2, ?_⟩
  unfold sigBytes
  rw [slice_ok (by omega) (by omega), List.drop_zero]
  simp only [Res.bind_ok]
  rw [r1, s1]
  simp only [Res.bind_ok, derSig, List.cons_append, List.nil_append, List.append_assoc]

end Wayki

/-- C42: whatever transaction was created (of any of the four types), combining accepts a signature exactly if it verifies over the hash
that was returned with it; then the answer is the same transaction followed by the (length-prefixed) DER signature. The signature has 64
bytes and two non-zero halves, which every valid one has. -/
theorem C42_combine (H : Hashes) (C : Btc.Curve) (f t a : Bytes) (amount fee height : Int) (ty : UInt8) (text hash sig pub : Bytes)
    (hc : create H f t a amount fee height ty = .ok (text, hash)) (hp : C.decompress pub ≠ []) :
    ∃ hb, hash = Hex.encode hb ∧ Hex.decode hash = .ok hb ∧
      (C.verify ((C.decompress pub).drop 1) hb sig = false → verifyAndCombine H C text sig pub = .ok (false, [])) ∧
      (C.verify ((C.decompress pub).drop 1) hb sig = true → sig.length = 64 → beNat (sig.take 32) ≠ 0 → beNat (sig.drop 32) ≠ 0 →
        ∃ R S, IsDerInt R (beNat (sig.take 32)) ∧ IsDerInt S (beNat (sig.drop 32)) ∧
          verifyAndCombine H C text sig pub = .ok (true, text ++ Hex.encode (UInt8.ofNat (derSig R S).length :: derSig R S))) := by
  obtain ⟨rest, rfl, rfl, hty⟩ := create_ok hc
  refine ⟨_, rfl, Hex.decode_encode _, fun hv => ?_, fun hv hl hr hs => ?_⟩
  · unfold verifyAndCombine
    rw [hashFromEmptyRaw_eq hty]
    simp only
    rw [if_neg hp, if_pos hv]
  · obtain ⟨R, S, h1, h2, h3⟩ := sigBytes_ok hl hr hs
    refine ⟨R, S, h1, h2, ?_⟩
    unfold verifyAndCombine
    rw [hashFromEmptyRaw_eq hty]
    simp only
    rw [if_neg hp, if_neg (by rw [hv]; decide), h3]
    rfl

example : (create toyHashes (Hex.encode (2 :: List.replicate 32 7)) [] [] 0 1000 20 2).isOk = true := by decide +kernel

/-- C42, the hash commits to the transaction: if two creations, of the same or of different types, return the same hash, they return the same
transaction, or two different texts with the same double SHA-256 have been found. -/
theorem C42_hash_commits (H : Hashes) (f t a f' t' a' : Bytes) (amount fee height amount' fee' height' : Int) (ty ty' : UInt8) (text text' hash : Bytes)
    (h : create H f t a amount fee height ty = .ok (text, hash)) (h' : create H f' t' a' amount' fee' height' ty' = .ok (text', hash)) :
    text = text' ∨ ∃ x y, x ≠ y ∧ H.hash .doubleSha256 x = H.hash .doubleSha256 y := by
  obtain ⟨rest, rfl, e, -⟩ := create_ok h
  obtain ⟨rest', rfl, e', -⟩ := create_ok h'
  have hh : H.hash .doubleSha256 (1 :: ty :: rest) = H.hash .doubleSha256 (1 :: ty' :: rest') := by
    have := congrArg Hex.decode (e.symm.trans e')
    rw [Hex.decode_encode, Hex.decode_encode] at this
    exact Res.ok.inj this
  by_cases hxy : (1 :: ty :: rest : Bytes) = 1 :: ty' :: rest'
  · left
    simp only [List.cons.injEq, true_and] at hxy
    rw [hxy.1, hxy.2]
  · exact Or.inr ⟨_, _, hxy, hh⟩

/-! ### C70 -/

theorem Wayki.create_via {H : Hashes} {f t a : Bytes} {am fe he : Int} {ty : UInt8} {tx : Tx} {P : Bytes → Prop}
    (h : newTx H f t a am fe he ty = .ok tx) (hp : P tx.toBytes) :
    ∃ text hash b, create H f t a am fe he ty = .ok (text, hash) ∧ Hex.decode text = .ok b ∧ P b := by
  refine ⟨_, Hex.encode (tx.getHash H), _, ?_, Hex.decode_encode _, hp⟩
  unfold create
  rw [h]
  rfl

/-- C70, base-coin transfers. -/
theorem C70_common_partial (H : Hashes) (src to_ app : Bytes) (h i : Nat) (d : Bytes) (amount fee height : Int)
    (hs : SpellsRegId src h i) (hh : h < 2 ^ 63) (hi : i < 2 ^ 63) (ha : IsAddress H to_ d) (h1 : 0 ≤ amount) (h2 : 0 ≤ fee)
    (h3 : 0 ≤ height) :
    ∃ text hash b, create H src to_ app amount fee height 3 = .ok (text, hash) ∧ Hex.decode text = .ok b ∧
      common b = some ⟨height.toNat, (h, i), d, fee.toNat, amount.toNat, []⟩ := by
  have hreg := fun rest => C43_regid_partial src h i hs hh hi rest
  apply create_via (P := fun b => common b = some ⟨height.toNat, (h, i), d, fee.toNat, amount.toNat, []⟩)
  · unfold newTx newCommonTx
    rw [if_pos rfl, if_neg (by omega), if_neg (by rw [(hreg []).1]; decide), (programHash_iff H _ _).mpr ha]
    rfl
  · unfold Tx.toBytes common
    rw [uvarint_one]
    simp only [List.append_assoc, List.cons_append, List.nil_append, header]
    rw [if_pos (by decide)]
    simp only [Option.bind_eq_bind, Option.bind_some]
    rw [varInt_ok h3]
    simp only [Option.bind_some]
    rw [(hreg _).2]
    simp only [Option.bind_some]
    rw [← List.cons_append, vec_ok (by have := ha.1; omega)]
    simp only [Option.bind_some]
    rw [varInt_ok h2]
    simp only [Option.bind_some]
    rw [varInt_ok h1]
    simp only [Option.bind_some]
    rfl

/-- C70, registrations. -/
theorem C70_register_partial (H : Hashes) (key to_ app : Bytes) (amount fee height : Int) (hk : key.length = 33) (h2 : 0 ≤ fee)
    (h3 : 0 ≤ height) :
    ∃ text hash b, create H (Hex.encode key) to_ app amount fee height 2 = .ok (text, hash) ∧ Hex.decode text = .ok b ∧
      register b = some ⟨height.toNat, key, [], fee.toNat⟩ := by
  apply create_via (P := fun b => register b = some ⟨height.toNat, key, [], fee.toNat⟩)
  · unfold newTx newRegisterAccountTx
    rw [if_neg (by decide), if_pos rfl, if_neg (by omega), Hex.decode_encode]
    simp only
    rw [if_neg (by simp [hk])]
  · unfold Tx.toBytes register
    rw [uvarint_one]
    simp only [List.append_assoc, List.cons_append, List.nil_append, header]
    rw [if_pos (by decide)]
    simp only [Option.bind_eq_bind, Option.bind_some]
    rw [varInt_ok h3]
    simp only [Option.bind_some]
    have hv := fun rest => vec_ok (d := key) (by omega) rest
    rw [hk] at hv
    rw [← List.cons_append, show (0x21 : UInt8) = UInt8.ofNat 33 from rfl, hv]
    simp only [Option.bind_some]
    have hz : ∀ r, vec (0x00 :: r) = some ([], r) := fun r => vec_ok (d := []) (by simp) r
    rw [hz]
    simp only [Option.bind_some]
    have := varInt_ok h2 []
    rw [List.append_nil] at this
    rw [this]
    rfl

/-- C70, contract calls with an argument of at most 252 bytes. -/
theorem C70_contract_partial (H : Hashes) (src app args : Bytes) (h i h' i' : Nat) (amount fee height : Int)
    (hs : SpellsRegId src h i) (hh : h < 2 ^ 63) (hi : i < 2 ^ 63) (hs' : SpellsRegId app h' i') (hh' : h' < 2 ^ 63) (hi' : i' < 2 ^ 63)
    (h1 : 0 ≤ amount) (h2 : 0 ≤ fee) (h3 : 0 ≤ height) (hl : args.length < 253) :
    ∃ text hash b, create H src (Hex.encode args) app amount fee height 4 = .ok (text, hash) ∧ Hex.decode text = .ok b ∧
      contract b = some ⟨height.toNat, (h, i), (h', i'), fee.toNat, amount.toNat, args⟩ := by
  have hreg := fun rest => C43_regid_partial src h i hs hh hi rest
  have hreg' := fun rest => C43_regid_partial app h' i' hs' hh' hi' rest
  apply create_via (P := fun b => contract b = some ⟨height.toNat, (h, i), (h', i'), fee.toNat, amount.toNat, args⟩)
  · unfold newTx newCallContractTx
    rw [if_neg (by decide), if_neg (by decide), if_pos rfl, if_neg (by omega), if_neg (by rw [(hreg []).1]; decide),
      if_neg (by rw [(hreg' []).1]; decide), Hex.decode_encode]
    rfl
  · unfold Tx.toBytes contract
    rw [uvarint_one]
    simp only [List.append_assoc, List.cons_append, List.nil_append, header]
    rw [if_pos (by decide)]
    simp only [Option.bind_eq_bind, Option.bind_some]
    rw [varInt_ok h3]
    simp only [Option.bind_some]
    rw [(hreg _).2]
    simp only [Option.bind_some]
    rw [(hreg' _).2]
    simp only [Option.bind_some]
    rw [varInt_ok h2]
    simp only [Option.bind_some]
    rw [varInt_ok h1]
    simp only [Option.bind_some]
    have := vec_ok hl []
    rw [List.append_nil] at this
    rw [this]
    rfl

/-- C70, transfers of a coin with a name of at most 252 bytes. -/
theorem C70_ucoin_partial (H : Hashes) (src to_ coin : Bytes) (h i : Nat) (d : Bytes) (amount fee height : Int)
    (hs : SpellsRegId src h i) (hh : h < 2 ^ 63) (hi : i < 2 ^ 63) (ha : IsAddress H to_ d) (h1 : 0 ≤ amount) (h2 : 0 ≤ fee)
    (h3 : 0 ≤ height) (hc : coin ≠ []) (hl : coin.length < 253) :
    ∃ text hash b, create H src to_ coin amount fee height 11 = .ok (text, hash) ∧ Hex.decode text = .ok b ∧
      ucoin b = some ⟨height.toNat, (h, i), asc "WICC", fee.toNat, d, coin, amount.toNat, []⟩ := by
  have hreg := fun rest => C43_regid_partial src h i hs hh hi rest
  apply create_via (P := fun b => ucoin b = some ⟨height.toNat, (h, i), asc "WICC", fee.toNat, d, coin, amount.toNat, []⟩)
  · unfold newTx newUcoinTransferTx
    rw [if_neg (by decide), if_neg (by decide), if_neg (by decide), if_pos rfl, if_neg (by omega), (programHash_iff H _ _).mpr ha]
    simp only [Res.bind_ok]
    rw [if_neg hc]
  · unfold Tx.toBytes ucoin
    rw [uvarint_one]
    simp only [List.append_assoc, List.cons_append, List.nil_append, header]
    rw [if_pos (by decide)]
    simp only [Option.bind_eq_bind, Option.bind_some]
    rw [varInt_ok h3]
    simp only [Option.bind_some]
    rw [(hreg _).2]
    simp only [Option.bind_some]
    rw [← List.cons_append, vec_ok (by decide +kernel)]
    simp only [Option.bind_some]
    rw [varInt_ok h2]
    simp only [Option.bind_some]
    have ht : ∀ r : Bytes, take 1 (1 :: r) = some ([1], r) := fun r => by simp [take]
    rw [ht]
    simp only [Option.bind_some]
    rw [if_neg (by simp), ← List.cons_append, vec_ok (by have := ha.1; omega)]
    simp only [Option.bind_some]
    rw [← List.cons_append, vec_ok hl]
    simp only [Option.bind_some]
    rw [varInt_ok h1]
    simp only [Option.bind_some]
    rfl

example : ∃ t d, IsAddress toyHashes t d := by
  obtain ⟨t, -, h2, -⟩ := C01_base58_roundtrip _ Btc.alphabet_ok ([0x49] ++ List.replicate 20 3 ++
    (toyHashes.hash .doubleSha256 ([0x49] ++ List.replicate 20 3)).take 4)
  exact ⟨t, List.replicate 20 3, rfl, 0x49, Or.inl rfl, h2⟩

/-- Where C70 fails: contract arguments of 253 bytes and more are accepted, but the chain cannot read them as they were. -/
theorem C70_long_contract_violated (H : Hashes) (src app args : Bytes) (h i h' i' : Nat) (amount fee height : Int)
    (hs : SpellsRegId src h i) (hh : h < 2 ^ 63) (hi : i < 2 ^ 63) (hs' : SpellsRegId app h' i') (hh' : h' < 2 ^ 63) (hi' : i' < 2 ^ 63)
    (h1 : 0 ≤ amount) (h2 : 0 ≤ fee) (h3 : 0 ≤ height) (hl : 253 ≤ args.length) :
    ∃ text hash b, create H src (Hex.encode args) app amount fee height 4 = .ok (text, hash) ∧ Hex.decode text = .ok b ∧
      ∀ r, contract b = some r → r.args ≠ args := by
  have hreg := fun rest => C43_regid_partial src h i hs hh hi rest
  have hreg' := fun rest => C43_regid_partial app h' i' hs' hh' hi' rest
  apply create_via (P := fun b => ∀ r, contract b = some r → r.args ≠ args)
  · unfold newTx newCallContractTx
    rw [if_neg (by decide), if_neg (by decide), if_pos rfl, if_neg (by omega), if_neg (by rw [(hreg []).1]; decide),
      if_neg (by rw [(hreg' []).1]; decide), Hex.decode_encode]
    rfl
  · intro r
    unfold Tx.toBytes contract
    rw [uvarint_one]
    simp only [List.append_assoc, List.cons_append, List.nil_append, header]
    rw [if_pos (by decide)]
    simp only [Option.bind_eq_bind, Option.bind_some]
    rw [varInt_ok h3]
    simp only [Option.bind_some]
    rw [(hreg _).2]
    simp only [Option.bind_some]
    rw [(hreg' _).2]
    simp only [Option.bind_some]
    rw [varInt_ok h2]
    simp only [Option.bind_some]
    rw [varInt_ok h1]
    simp only [Option.bind_some]
    intro hr he
    obtain ⟨⟨m, b⟩, e1, e2⟩ := Option.bind_eq_some_iff.mp hr
    simp only at e2
    split at e2
    · rename_i hb
      cases e2
      simp only at he
      rw [he, hb] at e1
      exact vec_bad hl e1
    · cases e2

end Verif
