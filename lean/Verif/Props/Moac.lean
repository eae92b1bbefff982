import Verif.Lemmas.Rlp
import Verif.Lemmas.Ontology
import Verif.Props.BtcTx

/-! C44, C45: MOAC transactions. -/

namespace Verif
open Verif.Moac Verif.Spec

namespace Moac

/-- An address: "0x" and twenty bytes in hexadecimal. -/
def IsAddress (t h : Bytes) : Prop := ∃ x, t = asc "0x" ++ x ∧ Hex.decode x = .ok h ∧ h.length = 20

/-- The numbers for which the encoding is right: not negative, not 1 to 127, at most 55 bytes. -/
def Plain (n : Int) : Prop := (n = 0 ∨ 128 ≤ n) ∧ n < 256 ^ 55

/-- The items of an unsigned (signature fields empty) or signed transaction. -/
def items (nonce : Nat) (gasPrice gasLimit : Int) (to_ : Bytes) (amount : Int) (chain r s : Bytes) : List Bytes :=
  [Rlp.be nonce, [], Rlp.be gasPrice.toNat, Rlp.be gasLimit.toNat, to_, Rlp.be amount.toNat, [], [], [], chain, r, s]

theorem address_iff (t b : Bytes) : getAddressHashBytes t = .ok b ↔ ∃ h, IsAddress t h ∧ b = Rlp.str h := by
  have e : ∀ h : Bytes, h.length = 20 → Rlp.str h = getLengthBytes 20 ++ h := by
    intro h hl
    rw [Rlp.str_short (by omega) (by omega), hl]
    rfl
  constructor
  · intro h
    unfold getAddressHashBytes at h
    split at h
    · cases h
    split at h
    · cases h
    rename_i h1 h2
    split at h
    · rename_i d hd
      split at h
      · cases h
      · rename_i hl
        cases h
        simp only [ne_eq, not_not] at hl h2
        exact ⟨d, ⟨t.drop 2, by rw [← h2, List.take_append_drop], hd, hl⟩, (e d hl).symm⟩
    · cases h
    · cases h
  · rintro ⟨h, ⟨x, rfl, hx, hl⟩, rfl⟩
    unfold getAddressHashBytes
    have l2 : (asc "0x").length = 2 := by decide
    rw [if_neg (by simp [l2]; omega), if_neg (by rw [List.take_left' l2]; simp), List.drop_left' l2, hx]
    simp only
    rw [if_neg (by simpa using hl), e h hl]

theorem bigInt_eq {n : Int} (h : Plain n) : getBigIntBytes n = Rlp.str (Rlp.be n.toNat) := by
  obtain ⟨h0, h1⟩ := h
  unfold getBigIntBytes
  simp only
  have e : n.natAbs = n.toNat := by omega
  rw [e, Rlp.bigBytes_eq, Rlp.str_be (by omega) (by
    have : (n.toNat : Int) < ((256 ^ 55 : Nat) : Int) := by push_cast; omega
    exact_mod_cast this)]

theorem str_chain (t : Bool) : (if t then [101] else [99] : Bytes) = Rlp.str (if t then [101] else [99]) := by
  cases t <;> decide +kernel

theorem str_nil : getLengthBytes 0 = Rlp.str [] := by decide +kernel

theorem body_str (nonce : UInt64) (gp gl am : Int) (h1 : Plain gp) (h2 : Plain gl) (h3 : Plain am) (to_ chain r s : Bytes) :
    (TxStruct.body ⟨getUint64Bytes nonce, getUint64Bytes 0, getBigIntBytes gp, getBigIntBytes gl, Rlp.str to_, getBigIntBytes am,
      getLengthBytes 0, getUint64Bytes 0, getUint64Bytes 0, Rlp.str chain, Rlp.str r, Rlp.str s⟩) =
    (items nonce.toNat gp gl to_ am chain r s).flatMap Rlp.str := by
  unfold TxStruct.body items
  rw [bigInt_eq h1, bigInt_eq h2, bigInt_eq h3, str_nil, Rlp.uint64_eq, Rlp.uint64_eq]
  simp

theorem be_le {n : Int} (h : Plain n) : (Rlp.be n.toNat).length ≤ 55 := by
  refine (Rlp.be_length_le _ _).mpr ?_
  have : (n.toNat : Int) < ((256 ^ 55 : Nat) : Int) := by
    obtain ⟨h0, h1⟩ := h
    push_cast
    omega
  exact_mod_cast this

theorem str_length_le {x : Bytes} (h : x.length ≤ 55) : (Rlp.str x).length ≤ 56 := by
  unfold Rlp.str
  split
  · omega
  split
  · simp; omega
  · omega

theorem items_le {nonce : UInt64} {gp gl am : Int} (h1 : Plain gp) (h2 : Plain gl) (h3 : Plain am) {to_ chain r s : Bytes}
    (ht : to_.length ≤ 55) (hc : chain.length ≤ 55) (hr : r.length ≤ 55) (hs : s.length ≤ 55) :
    ∀ x ∈ items nonce.toNat gp gl to_ am chain r s, x.length ≤ 55 := by
  have hn : (Rlp.be nonce.toNat).length ≤ 8 := Rlp.be_len8 nonce.toNat_lt
  have a1 := be_le h1
  have a2 := be_le h2
  have a3 := be_le h3
  intro x hx
  unfold items at hx
  simp only [List.mem_cons, List.not_mem_nil, or_false] at hx
  rcases hx with rfl | rfl | rfl | rfl | rfl | rfl | rfl | rfl | rfl | rfl | rfl | rfl <;> first | omega | simp

theorem items_defined {l : List Bytes} (h : ∀ x ∈ l, x.length ≤ 55) : (l.flatMap Rlp.str).length ≤ l.length * 56 := by
  induction l with
  | nil => simp
  | cons x l ih =>
    have := str_length_le (h x (by simp))
    have := ih fun y hy => h y (by simp [hy])
    simp only [List.flatMap_cons, List.length_append, List.length_cons]
    omega

theorem toBytes_list {t : TxStruct} {l : List Bytes} (h : t.body = l.flatMap Rlp.str) (hl : ∀ x ∈ l, x.length ≤ 55) (h12 : l.length = 12) :
    t.toBytes = Rlp.list l := by
  unfold TxStruct.toBytes
  have := items_defined hl
  rw [Rlp.head_eq (by rw [h]; omega), h]
  rfl

theorem create_body {to_ : Bytes} {nonce : UInt64} {amount gasLimit gasPrice : Int} {test : Bool} {h : Bytes}
    (ha : IsAddress to_ h) :
    newTxStruct to_ nonce amount gasLimit gasPrice test =
      .ok ⟨getUint64Bytes nonce, getUint64Bytes 0, getBigIntBytes gasPrice, getBigIntBytes gasLimit, Rlp.str h, getBigIntBytes amount,
      getLengthBytes 0, getUint64Bytes 0, getUint64Bytes 0, Rlp.str (if test then [101] else [99]), Rlp.str [], Rlp.str []⟩ := by
  unfold newTxStruct
  rw [(address_iff _ _).mpr ⟨h, ha, rfl⟩, ← str_chain, ← str_nil]
  rfl

end Moac

/-! ### C44 -/

/-- RLP determines the items. -/
theorem C44_rlp_injective (l m : List Bytes) (hl : Rlp.Defined l) (hm : Rlp.Defined m) (h : Rlp.list l = Rlp.list m) : l = m :=
  Rlp.list_inj hl hm h

/-- C44 for numbers that are neither negative nor 1 to 127 nor longer than 55 bytes: the unsigned transaction is the RLP list of the given
values, and the hash is the Keccak hash of these bytes. -/
theorem C44_unsigned_partial (H : Hashes) (to_ h : Bytes) (nonce : UInt64) (amount gasLimit gasPrice : Int) (test : Bool)
    (ha : IsAddress to_ h) (h1 : Plain amount) (h2 : Plain gasLimit) (h3 : Plain gasPrice) :
    ∃ b, create H to_ nonce amount gasLimit gasPrice test = .ok (Hex.encode b, Hex.encode (H.hash .keccak256 b)) ∧
      b = Rlp.list (items nonce.toNat gasPrice gasLimit h amount (if test then [101] else [99]) [] []) ∧
      Rlp.Defined (items nonce.toNat gasPrice gasLimit h amount (if test then [101] else [99]) [] []) := by
  refine ⟨_, ?_, rfl, ?_⟩
  · unfold create
    rw [create_body ha]
    simp only [Res.bind_ok]
    rw [toBytes_list (body_str nonce gasPrice gasLimit amount h3 h2 h1 h _ [] [])]
    · exact items_le h3 h2 h1 (by obtain ⟨x, -, -, hl⟩ := ha; omega) (by cases test <;> decide) (by simp) (by simp)
    · rfl
  · have hle := items_le (nonce := nonce) (chain := if test then [101] else [99]) (r := []) (s := []) h3 h2 h1
      (by obtain ⟨x, -, -, hl⟩ := ha; omega : h.length ≤ 55) (by cases test <;> decide) (by simp) (by simp)
    refine ⟨fun x hx => lt_of_le_of_lt (hle x hx) (by norm_num), lt_of_le_of_lt (items_defined hle) ?_⟩
    show 12 * 56 < 2 ^ 64
    norm_num

example : IsAddress (asc "0x0000000000000000000000000000000000000001") (List.replicate 19 0 ++ [1]) ∧ Plain 1000000000000000000 ∧ Plain 0 :=
  ⟨⟨asc "0000000000000000000000000000000000000001", by decide +kernel, by decide +kernel, rfl⟩, ⟨by norm_num, by norm_num⟩,
    ⟨by norm_num, by norm_num⟩⟩

/-- A transaction is created exactly for the texts that are addresses. -/
theorem C44_address_checked (H : Hashes) (to_ : Bytes) (nonce : UInt64) (amount gasLimit gasPrice : Int) (test : Bool) :
    (create H to_ nonce amount gasLimit gasPrice test).isOk = true ↔ ∃ h, IsAddress to_ h := by
  constructor
  · intro h
    unfold create newTxStruct at h
    cases e : getAddressHashBytes to_ with
    | ok b => exact ((address_iff _ _).mp e).imp fun _ h => h.1
    | err => rw [e] at h; cases h
    | panic => rw [e] at h; cases h
  · rintro ⟨h, ha⟩
    unfold create
    rw [create_body ha]
    rfl

/-- Where C44 fails (a): if an amount, limit or price is 1 to 127, the transaction is not the RLP of any list of strings. -/
theorem C44_small_violated (H : Hashes) (to_ : Bytes) (nonce : UInt64) (amount gasLimit gasPrice : Int) (test : Bool) (text hash b : Bytes)
    (h1 : 0 ≤ amount ∧ amount < 256 ^ 55) (h2 : 0 ≤ gasLimit ∧ gasLimit < 256 ^ 55) (h3 : 0 ≤ gasPrice ∧ gasPrice < 256 ^ 55)
    (hs : (0 < amount ∧ amount < 128) ∨ (0 < gasLimit ∧ gasLimit < 128) ∨ (0 < gasPrice ∧ gasPrice < 128))
    (hc : create H to_ nonce amount gasLimit gasPrice test = .ok (text, hash)) (hb : Hex.decode text = .ok b) (l : List Bytes)
    (hl : Rlp.Defined l) : b ≠ Rlp.list l := by
  obtain ⟨h, ha⟩ := (C44_address_checked H to_ nonce amount gasLimit gasPrice test).mp (by rw [hc]; rfl)
  have hal : h.length = 20 := by obtain ⟨x, -, -, hl⟩ := ha; exact hl
  unfold create at hc
  rw [create_body ha] at hc
  simp only [Res.bind_ok, Res.ok.injEq, Prod.mk.injEq] at hc
  obtain ⟨rfl, -⟩ := hc
  rw [Hex.decode_encode] at hb
  cases hb
  intro he
  have plain_or : ∀ {n : Int}, 0 ≤ n ∧ n < 256 ^ 55 → Plain n ∨ (0 < n ∧ n < 128) := by
    intro n h
    unfold Plain
    omega
  have small : ∀ {n : Int}, 0 < n ∧ n < 128 → ∃ v : UInt8, v.toNat < 128 ∧ getBigIntBytes n = [0x81, v] := by
    intro n hn
    refine ⟨UInt8.ofNat n.natAbs, by simp; omega, ?_⟩
    unfold getBigIntBytes
    simp only
    rw [Rlp.bigBytes_eq, Rlp.be_one (by omega) (by omega)]
    rfl
  have len : ∀ {n : Int}, 0 ≤ n ∧ n < 256 ^ 55 → (getBigIntBytes n).length ≤ 56 := by
    intro n hn
    unfold getBigIntBytes
    simp only [getLengthBytes, List.length_append, List.length_cons, List.length_nil]
    rw [Rlp.bigBytes_eq]
    have : (Rlp.be n.natAbs).length ≤ 55 := by
      refine (Rlp.be_length_le _ _).mpr ?_
      have e : n.natAbs = n.toNat := by omega
      rw [e]
      have : (n.toNat : Int) < ((256 ^ 55 : Nat) : Int) := by push_cast; omega
      exact_mod_cast this
    omega
  have strip : ∀ {x : Bytes} {s : Bytes} {l : List Bytes}, x.length < 2 ^ 64 → (∀ y ∈ l, y.length < 2 ^ 64) →
      Rlp.str x ++ s = l.flatMap Rlp.str → ∃ l' : List Bytes, (∀ y ∈ l', y.length < 2 ^ 64) ∧ s = l'.flatMap Rlp.str := by
    intro x s l hx hl h
    cases l with
    | nil =>
      rw [List.flatMap_nil] at h
      exact absurd (List.append_eq_nil_iff.mp h).1 Rlp.str_ne
    | cons y l =>
      rw [List.flatMap_cons] at h
      exact ⟨l, fun z hz => hl z (by simp [hz]), (Rlp.str_prefix hx (hl y (by simp)) h).2⟩
  have bad : ∀ {n : Int} {s : Bytes} {l : List Bytes}, (0 < n ∧ n < 128) → (∀ y ∈ l, y.length < 2 ^ 64) →
      getBigIntBytes n ++ s = l.flatMap Rlp.str → False := by
    intro n s l hn hl h
    obtain ⟨v, hv, e⟩ := small hn
    rw [e] at h
    exact Rlp.not_canonical hv s l hl h.symm
  unfold TxStruct.toBytes at he
  have sn : ∀ d : UInt64, (Rlp.be d.toNat).length < 2 ^ 64 := fun d => lt_of_le_of_lt (Rlp.be_len8 d.toNat_lt) (by norm_num)
  have sp : ∀ {n : Int}, Plain n → (Rlp.be n.toNat).length < 2 ^ 64 := fun h => lt_of_le_of_lt (be_le h) (by norm_num)
  have hlen : (TxStruct.body ⟨getUint64Bytes nonce, getUint64Bytes 0, getBigIntBytes gasPrice, getBigIntBytes gasLimit, Rlp.str h,
      getBigIntBytes amount, getLengthBytes 0, getUint64Bytes 0, getUint64Bytes 0, Rlp.str (if test then [101] else [99]), Rlp.str [],
      Rlp.str []⟩).length < 2 ^ 64 := by
    have l1 := len h1
    have l2 := len h2
    have l3 := len h3
    have l4 := str_length_le (x := h) (by omega)
    have l5 : (getUint64Bytes nonce).length ≤ 56 := by
      rw [Rlp.uint64_eq]
      exact str_length_le (by have := Rlp.be_len8 nonce.toNat_lt; omega)
    have l6 : (Rlp.str (if test then [101] else [99])).length = 1 := by cases test <;> decide +kernel
    have l7 : (Rlp.str []).length = 1 := by decide +kernel
    have l8 : (getUint64Bytes 0).length = 1 := by decide +kernel
    have l9 : (getLengthBytes 0).length = 1 := by decide +kernel
    unfold TxStruct.body
    simp only [List.length_append]
    omega
  rw [Rlp.head_eq hlen, Rlp.list_eq] at he
  have he := Rlp.listOf_inj hlen hl.2 he
  unfold TxStruct.body at he
  simp only [Rlp.uint64_eq, List.append_assoc] at he
  obtain ⟨l1, a1, he⟩ := strip (sn _) hl.1 he
  obtain ⟨l2, a2, he⟩ := strip (sn _) a1 he
  rcases plain_or h3 with p3 | p3
  · rw [bigInt_eq p3] at he
    obtain ⟨l3, a3, he⟩ := strip (sp p3) a2 he
    rcases plain_or h2 with p2 | p2
    · rw [bigInt_eq p2] at he
      obtain ⟨l4, a4, he⟩ := strip (sp p2) a3 he
      obtain ⟨l5, a5, he⟩ := strip (by omega) a4 he
      rcases plain_or h1 with p1 | p1
      · obtain ⟨q1, -⟩ := p1
        obtain ⟨q2, -⟩ := p2
        obtain ⟨q3, -⟩ := p3
        omega
      · exact bad p1 a5 he
    · exact bad p2 a3 he
  · exact bad p3 a2 he

/-- Where C44 fails (b): the sign is lost. -/
theorem C44_sign_violated (H : Hashes) (to_ : Bytes) (nonce : UInt64) (amount gasLimit gasPrice : Int) (test : Bool) :
    create H to_ nonce (-amount) gasLimit gasPrice test = create H to_ nonce amount gasLimit gasPrice test := by
  unfold create newTxStruct getBigIntBytes
  rw [Int.natAbs_neg]

/-! ### C45 -/

namespace Moac

theorem decodeItem_ok {x : Bytes} (h : x.length ≤ 127) (rest : Bytes) :
    decodeItem (getLengthBytes x.length ++ (x ++ rest)) = .ok (getLengthBytes x.length ++ x, rest) := by
  have e : (UInt8.ofNat (x.length + 128)).toNat = x.length + 128 := by
    simp only [UInt8.toNat_ofNat']
    omega
  unfold decodeItem getLengthBytes
  simp only [List.cons_append, List.nil_append]
  rw [if_neg (by rw [UInt8.lt_iff_toNat_lt, e]; simp), e, Nat.add_sub_cancel, if_neg (by simp; omega)]
  rw [Nat.add_comm 1, List.take_succ_cons, List.drop_succ_cons, List.take_left, List.drop_left]

theorem decodeBig_ok {n : Int} (h : (getBigIntBytes n).length ≤ 128) (rest : Bytes) :
    decodeItem (getBigIntBytes n ++ rest) = .ok (getBigIntBytes n, rest) := by
  unfold getBigIntBytes at h ⊢
  simp only [getLengthBytes, List.length_append, List.length_cons, List.length_nil] at h
  simp only [List.append_assoc]
  exact decodeItem_ok (by omega) rest

theorem decodeNil_ok (rest : Bytes) : decodeItem (getUint64Bytes 0 ++ rest) = .ok (getUint64Bytes 0, rest) :=
  decodeItem_ok (x := []) (by simp) rest

theorem decodeLen_ok (rest : Bytes) : decodeItem (getLengthBytes 0 ++ rest) = .ok (getLengthBytes 0, rest) :=
  decodeItem_ok (x := []) (by simp) rest

theorem str20 {h : Bytes} (hl : h.length = 20) : Rlp.str h = getLengthBytes h.length ++ h := by
  rw [Rlp.str_short (by omega) (by omega), Nat.add_comm]
  rfl

theorem decodeAddr_ok {h : Bytes} (hl : h.length = 20) (rest : Bytes) : decodeItem (Rlp.str h ++ rest) = .ok (Rlp.str h, rest) := by
  rw [str20 hl, List.append_assoc]
  exact decodeItem_ok (by omega) rest

theorem uint64_cases (n : UInt64) : (∃ c : UInt8, getUint64Bytes n = [c] ∧ c ≤ 0x80) ∨
    ∃ x : Bytes, x.length ≤ 8 ∧ x.length ≠ 0 ∧ getUint64Bytes n = getLengthBytes x.length ++ x := by
  unfold getUint64Bytes
  split
  · exact Or.inl ⟨0x80, rfl, by decide⟩
  split
  · rename_i h
    left
    refine ⟨_, rfl, ?_⟩
    rw [UInt64.lt_iff_toNat_lt] at h
    rw [UInt8.le_iff_toNat_le]
    simp at h ⊢
    omega
  · rename_i h0 h
    right
    refine ⟨_, ?_, ?_, rfl⟩
    · exact le_trans (List.Sublist.length_le (List.dropWhile_sublist _)) (by simp)
    · rw [Rlp.be_beBytes (by have := n.toNat_lt; norm_num at this ⊢; exact this)]
      intro hc
      have := (Rlp.be_length_le n.toNat 0).mp (by omega)
      simp at this
      exact h0 (UInt64.toNat_inj.mp this)

theorem decodeNonce_ok (n : UInt64) (rest : Bytes) : decodeNonce (getUint64Bytes n ++ rest) = .ok (getUint64Bytes n, rest) := by
  rcases uint64_cases n with ⟨c, e, hc⟩ | ⟨x, h8, h0, e⟩
  · rw [e]
    unfold decodeNonce
    simp only [List.cons_append, List.nil_append]
    rw [if_pos hc]
    rfl
  · rw [e]
    have et : (UInt8.ofNat (x.length + 128)).toNat = x.length + 128 := by
      simp only [UInt8.toNat_ofNat']
      omega
    unfold decodeNonce getLengthBytes
    simp only [List.cons_append, List.nil_append]
    rw [if_neg (fun hc => by
      have := UInt8.le_iff_toNat_le.mp hc
      rw [et, show (0x80 : UInt8).toNat = 128 from rfl] at this
      omega), et, Nat.add_sub_cancel, if_neg (by simp; omega)]
    rw [Nat.add_comm 1, List.take_succ_cons, List.drop_succ_cons, List.take_left, List.drop_left]

/-- The transaction that is created. -/
def emptyTx (nonce : UInt64) (gp gl am : Int) (h chain : Bytes) : TxStruct :=
  ⟨getUint64Bytes nonce, getUint64Bytes 0, getBigIntBytes gp, getBigIntBytes gl, Rlp.str h, getBigIntBytes am,
      getLengthBytes 0, getUint64Bytes 0, getUint64Bytes 0, chain, [0x80], [0x80]⟩

theorem body_parts {nonce : UInt64} {gp gl am : Int} {h chain : Bytes} {k : Nat} (hb : (emptyTx nonce gp gl am h chain).body.length ≤ k) :
    (getBigIntBytes gp).length ≤ k ∧ (getBigIntBytes gl).length ≤ k ∧ (getBigIntBytes am).length ≤ k := by
  unfold emptyTx TxStruct.body at hb
  simp only [List.length_append] at hb
  omega

theorem decodeEmpty_ok {nonce : UInt64} {gp gl am : Int} {h : Bytes} {c : UInt8} (hl : h.length = 20)
    (hb : (emptyTx nonce gp gl am h [c]).body.length ≤ 128) :
    decodeEmpty (emptyTx nonce gp gl am h [c]).body = .ok { emptyTx nonce gp gl am h [c] with r := [], s := [] } := by
  obtain ⟨b1, b2, b3⟩ := body_parts hb
  unfold decodeEmpty emptyTx TxStruct.body
  simp only [List.append_assoc]
  rw [decodeNonce_ok]
  simp only [Res.bind_ok]
  rw [decodeNil_ok]
  simp only [Res.bind_ok]
  rw [decodeBig_ok b1]
  simp only [Res.bind_ok]
  rw [decodeBig_ok b2]
  simp only [Res.bind_ok]
  rw [decodeAddr_ok hl]
  simp only [Res.bind_ok]
  rw [decodeBig_ok b3]
  simp only [Res.bind_ok]
  rw [decodeLen_ok]
  simp only [Res.bind_ok]
  rw [decodeNil_ok]
  simp only [Res.bind_ok]
  rw [decodeNil_ok]
  simp only [Res.bind_ok]
  rw [Btc.takeN_append (n := 1) _ _ rfl]
  simp only [Res.bind_ok]
  rw [if_neg (by simp)]

/-- With one byte too many in front, nothing is decoded. -/
theorem decodeEmpty_shifted {nonce : UInt64} {gp gl am : Int} {h : Bytes} {c x : UInt8} (hl : h.length = 20) (hx : x ≤ 0x80)
    (hb : (emptyTx nonce gp gl am h [c]).body.length ≤ 128) :
    decodeEmpty (x :: (emptyTx nonce gp gl am h [c]).body) = .err := by
  obtain ⟨b1, b2, b3⟩ := body_parts hb
  unfold decodeEmpty emptyTx TxStruct.body
  simp only [List.append_assoc]
  have e : ∀ r, decodeNonce (x :: r) = .ok ([x], r) := by
    intro r
    unfold decodeNonce
    simp only
    rw [if_pos hx]
    rfl
  rw [e]
  simp only [Res.bind_ok]
  have en : ∀ r, decodeItem (getUint64Bytes nonce ++ r) = .err ∨ decodeItem (getUint64Bytes nonce ++ r) = .ok (getUint64Bytes nonce, r) := by
    intro r
    rcases uint64_cases nonce with ⟨d, e, hd⟩ | ⟨y, h8, h0, e⟩
    · by_cases h1 : d < 0x80
      · left
        rw [e]
        unfold decodeItem
        simp only [List.cons_append, List.nil_append]
        rw [if_pos h1]
      · right
        have : d = 0x80 := by
          rw [UInt8.lt_iff_toNat_lt] at h1
          rw [UInt8.le_iff_toNat_le] at hd
          apply UInt8.toNat_inj.mp
          omega
        rw [e, this]
        exact decodeNil_ok r
    · right
      rw [e, List.append_assoc]
      exact decodeItem_ok (by omega) r
  rcases en _ with h' | h'
  · rw [h']; rfl
  rw [h']
  simp only [Res.bind_ok]
  rw [decodeNil_ok]
  simp only [Res.bind_ok]
  rw [decodeBig_ok b1]
  simp only [Res.bind_ok]
  rw [decodeBig_ok b2]
  simp only [Res.bind_ok]
  rw [decodeAddr_ok hl]
  simp only [Res.bind_ok]
  rw [decodeBig_ok b3]
  simp only [Res.bind_ok]
  rw [decodeLen_ok]
  simp only [Res.bind_ok]
  rw [decodeNil_ok]
  simp only [Res.bind_ok]
  rw [Btc.takeN_append (n := 1) _ _ rfl]
  simp only [Res.bind_ok]
  rw [if_pos (by simp)]

theorem create_empty {H : Hashes} {to_ text hash : Bytes} {nonce : UInt64} {am gl gp : Int} {test : Bool}
    (hc : create H to_ nonce am gl gp test = .ok (text, hash)) :
    ∃ h, IsAddress to_ h ∧ text = Hex.encode (emptyTx nonce gp gl am h [if test then 101 else 99]).toBytes ∧
      hash = Hex.encode (H.hash .keccak256 (emptyTx nonce gp gl am h [if test then 101 else 99]).toBytes) := by
  obtain ⟨h, ha⟩ := (C44_address_checked H to_ nonce am gl gp test).mp (by rw [hc]; rfl)
  unfold create at hc
  rw [create_body ha, ← str_chain] at hc
  simp only [Res.bind_ok, Res.ok.injEq, Prod.mk.injEq] at hc
  refine ⟨h, ha, ?_, ?_⟩
  · rw [← hc.1]
    cases test <;> rfl
  · rw [← hc.2]
    cases test <;> rfl

theorem toBytes_length {t : TxStruct} (h : t.toBytes.length ≤ 56) : t.body.length < 56 ∧ t.toBytes = UInt8.ofNat (0xC0 + t.body.length) :: t.body := by
  unfold TxStruct.toBytes at h ⊢
  by_cases hb : t.body.length < 56
  · refine ⟨hb, ?_⟩
    unfold getHeadBytes
    rw [if_pos hb, UInt8.ofNat_add]
    rfl
  · exfalso
    rw [List.length_append] at h
    have : 1 ≤ (getHeadBytes t.body.length).length := by
      unfold getHeadBytes
      split <;> simp
    omega

theorem toBytes_long {t : TxStruct} (h1 : 57 ≤ t.toBytes.length) (h2 : t.toBytes.length ≤ 130) :
    ∃ x : UInt8, x ≤ 0x80 ∧ t.toBytes = 0xF8 :: x :: t.body ∧ t.body.length ≤ 128 := by
  unfold TxStruct.toBytes at h1 h2 ⊢
  rw [List.length_append] at h1 h2
  by_cases hb : t.body.length < 56
  · exfalso
    have : (getHeadBytes t.body.length).length = 1 := by
      unfold getHeadBytes
      rw [if_pos hb]
      rfl
    omega
  · have hp : putintSize t.body.length = 1 := by
      unfold putintSize
      rw [if_pos (by omega)]
    have e : getHeadBytes t.body.length = [0xF8, UInt8.ofNat t.body.length] := by
      unfold getHeadBytes
      rw [if_neg hb, hp]
      simp [beBytes, leBytes]
    rw [e] at h2 ⊢
    simp only [List.length_cons, List.length_nil] at h2
    refine ⟨_, ?_, rfl, by omega⟩
    rw [UInt8.le_iff_toNat_le]
    simp
    omega

theorem lower_digit (c : UInt8) : ∀ n : Fin 16, (if 0x41 ≤ c ∧ c ≤ 0x5a then c + 0x20 else c) = Hex.digit (UInt8.ofNat n.val) ↔
    Hex.value c = some (UInt8.ofNat n.val) := by
  revert c
  apply Hex.u8_forall
  decide +kernel

theorem lower_digit' (c n : UInt8) (h : n.toNat < 16) : (if 0x41 ≤ c ∧ c ≤ 0x5a then c + 0x20 else c) = Hex.digit n ↔ Hex.value c = some n := by
  have := lower_digit c ⟨n.toNat, h⟩
  simpa using this

theorem value_lt (c v : UInt8) (h : Hex.value c = some v) : v.toNat < 16 :=
  UInt8.lt_iff_toNat_lt.mp (Hex.digit_value c v h).1

/-- Comparing hexadecimal texts in lower case is comparing what they denote. -/
theorem lower_iff : ∀ (t b : Bytes), toLower t = Hex.encode b ↔ Hex.decode t = .ok b
  | [], b => by
    cases b with
    | nil => simp [toLower, Hex.encode, Hex.decode]
    | cons x b => simp [toLower, Hex.encode, Hex.decode]
  | [a], b => by
    cases b with
    | nil => simp [toLower, Hex.encode, Hex.decode]
    | cons x b => simp [toLower, Hex.encode, Hex.decode]
  | a :: c :: t, b => by
    have ih := lower_iff t
    cases b with
    | nil =>
      simp only [toLower, Hex.encode, Hex.decode, List.map_cons]
      constructor
      · intro h; cases h
      · intro h
        repeat' split at h
        all_goals cases h
    | cons x b =>
      have h1 : (x / 16).toNat < 16 := by
        have := x.toNat_lt
        rw [UInt8.toNat_div]
        simp
        omega
      have h2 : (x % 16).toNat < 16 := by
        rw [UInt8.toNat_mod]
        simp
        omega
      have e1 := lower_digit' a _ h1
      have e2 := lower_digit' c _ h2
      unfold toLower at ih ⊢
      rw [List.map_cons, List.map_cons, Hex.encode, List.cons.injEq, List.cons.injEq, e1, e2, ih]
      constructor
      · rintro ⟨v1, v2, v3⟩
        unfold Hex.decode
        rw [v1, v2, v3]
        simp only
        rw [Hex.nibbles]
      · intro h
        unfold Hex.decode at h
        split at h
        · rename_i y z hy hz
          split at h
          · rename_i bs hbs
            simp only [Res.ok.injEq, List.cons.injEq] at h
            obtain ⟨h, rfl⟩ := h
            have l1 := value_lt _ _ hy
            have l2 := value_lt _ _ hz
            have ex : y = x / 16 ∧ z = x % 16 := by
              constructor
              · apply UInt8.toNat_inj.mp
                rw [← h]
                simp
                omega
              · apply UInt8.toNat_inj.mp
                rw [← h]
                simp
                omega
            rw [hy, hz, hbs, ex.1, ex.2]
            exact ⟨rfl, rfl, rfl⟩
          · cases h
          · cases h
        · cases h

theorem lower_hex (b : Bytes) : toLower (Hex.encode b) = Hex.encode b := (lower_iff _ _).mpr (Hex.decode_encode b)

/-- The checks of a signature. -/
theorem combine_eq {H : Hashes} {C : Curve} {text sigText pk b sig pub : Bytes} {test : Bool} (hb : Hex.decode text = .ok b)
    (hs : Hex.decode sigText = .ok sig) (hl : sig.length = 65) (hv : sig.drop 64 = [0x00] ∨ sig.drop 64 = [0x01])
    (hr : C.recover sig (H.hash .keccak256 b) = some pub) (hp : Hex.decode pk = .ok (C.compress pub))
    (hver : C.verify pub (H.hash .keccak256 b) (sig.take 64) = true) :
    verifyAndCombine H C text sigText pk test = (do
      let ok ← headOk b
      if ok = false then .ok (false, [])
      else
        match decodeEmpty (b.drop 1) with
        | .ok t => .ok (true, asc "0x" ++ Hex.encode (addSig t sig test).toBytes)
        | .err => .ok (false, [])
        | .panic => .panic) := by
  unfold verifyAndCombine
  rw [hb, hs]
  simp only
  rw [if_neg (by rcases hv with h | h <;> simp [hl, h]), hr]
  simp only
  rw [if_neg (by rw [lower_hex, (lower_iff _ _).mpr hp]; simp), if_neg (by rw [hver]; decide)]
  rfl

theorem combine_true {H : Hashes} {C : Curve} {text sigText pk out : Bytes} {test : Bool}
    (h : verifyAndCombine H C text sigText pk test = .ok (true, out)) :
    ∃ b sig pub t, Hex.decode text = .ok b ∧ Hex.decode sigText = .ok sig ∧ sig.length = 65 ∧
      (sig.drop 64 = [0x00] ∨ sig.drop 64 = [0x01]) ∧ C.recover sig (H.hash .keccak256 b) = some pub ∧
      Hex.decode pk = .ok (C.compress pub) ∧ C.verify pub (H.hash .keccak256 b) (sig.take 64) = true ∧ decodeEmpty (b.drop 1) = .ok t := by
  unfold verifyAndCombine at h
  split at h
  · rename_i b sig hb hs
    split at h
    · cases h
    rename_i h1
    split at h
    · cases h
    rename_i pub hr
    split at h
    · cases h
    rename_i hp
    split at h
    · cases h
    rename_i hver
    obtain ⟨ok, -, h⟩ := Res.bind_eq_ok.mp h
    split at h
    · cases h
    split at h
    · rename_i t ht
      rw [not_or, not_and_or, ne_eq, not_not, ne_eq, not_not, ne_eq, not_not] at h1
      rw [ne_eq, not_not, lower_hex] at hp
      exact ⟨b, sig, pub, t, hb, hs, h1.1, h1.2.symm, hr, (lower_iff _ _).mp hp.symm, by simpa using hver, ht⟩
    · cases h
    · cases h
  · cases h

theorem headOk_eq {t : TxStruct} (h : t.body.length < 56) : headOk (UInt8.ofNat (0xC0 + t.body.length) :: t.body) = .ok true := by
  unfold headOk
  rw [if_pos (by simp; omega)]
  simp only [Res.ok.injEq]
  unfold getHeadBytes
  rw [if_pos h, UInt8.ofNat_add]
  simp

end Moac

/-- C45, what success means: the signature is 65 bytes, recovers (over the Keccak hash of the transaction bytes) to the given public key
(hexadecimal in any letter case), and verifies. -/
theorem C45_verified (H : Hashes) (C : Moac.Curve) (text sigText pk out : Bytes) (test : Bool)
    (h : Moac.verifyAndCombine H C text sigText pk test = .ok (true, out)) :
    ∃ b sig pub, Hex.decode text = .ok b ∧ Hex.decode sigText = .ok sig ∧ sig.length = 65 ∧
      C.recover sig (H.hash .keccak256 b) = some pub ∧ Hex.decode pk = .ok (C.compress pub) ∧
      C.verify pub (H.hash .keccak256 b) (sig.take 64) = true := by
  obtain ⟨b, sig, pub, t, h1, h2, h3, -, h5, h6, h7, -⟩ := combine_true h
  exact ⟨b, sig, pub, h1, h2, h3, h5, h6, h7⟩

/-- C45 for transactions of at most 56 bytes: combining succeeds for every signature that is right, and the result is the RLP list of the
same values with v = recovery id + 35 + 2 * chain id, r and s (which are not 1 to 127; then they would not be RLP). -/
theorem C45_combine_partial (H : Hashes) (C : Moac.Curve) (to_ text hash sigText pk sig hb pub : Bytes) (nonce : UInt64)
    (amount gasLimit gasPrice : Int) (test : Bool) (v : Fin 2)
    (hc : Moac.create H to_ nonce amount gasLimit gasPrice test = .ok (text, hash)) (hlen : text.length ≤ 112)
    (h1 : Plain amount) (h2 : Plain gasLimit) (h3 : Plain gasPrice)
    (hs : Hex.decode sigText = .ok sig) (hl : sig.length = 65) (hv : sig.drop 64 = [UInt8.ofNat v.val]) (hh : Hex.decode hash = .ok hb)
    (hrec : C.recover sig hb = some pub) (hp : Hex.decode pk = .ok (C.compress pub)) (hver : C.verify pub hb (sig.take 64) = true)
    (hr : Plain (beNat (sig.take 32))) (hss : Plain (beNat ((sig.drop 32).take 32))) :
    ∃ h, IsAddress to_ h ∧ Moac.verifyAndCombine H C text sigText pk test = .ok (true, asc "0x" ++ Hex.encode (Rlp.list
      (items nonce.toNat gasPrice gasLimit h amount (Rlp.be (v.val + 35 + 2 * (if test then 101 else 99))) (Rlp.be (beNat (sig.take 32)))
        (Rlp.be (beNat ((sig.drop 32).take 32)))))) := by
  obtain ⟨h, ha, et, eh⟩ := create_empty hc
  have hal : h.length = 20 := by obtain ⟨x, -, -, hl⟩ := ha; exact hl
  refine ⟨h, ha, ?_⟩
  rw [eh, Hex.decode_encode] at hh
  have hh := Res.ok.inj hh
  rw [← hh] at hrec hver
  rw [et, Hex.encode_length] at hlen
  obtain ⟨hb, e⟩ := toBytes_length (by omega : (emptyTx nonce gasPrice gasLimit amount h [if test then 101 else 99]).toBytes.length ≤ 56)
  have hv' : sig.drop 64 = [0x00] ∨ sig.drop 64 = [0x01] := by
    rw [hv]
    match v with
    | 0 => exact Or.inl rfl
    | 1 => exact Or.inr rfl
  rw [et, combine_eq (Hex.decode_encode _) hs hl hv' hrec hp hver]
  rw [e, headOk_eq hb]
  simp only [Res.bind_ok]
  rw [if_neg (by decide), List.drop_succ_cons, List.drop_zero, decodeEmpty_ok hal (by omega)]
  refine congrArg (fun x => Res.ok (true, asc "0x" ++ Hex.encode x)) (?_ : (addSig _ sig test).toBytes = _)
  have r32 : ∀ {x : Bytes}, x.length ≤ 32 → Plain (beNat x) → getLengthBytes (x.dropWhile (· = 0)).length ++ x.dropWhile (· = 0) =
      Rlp.str (Rlp.be (beNat x)) := by
    intro x hx hp
    rw [← Rlp.be_beNat, Rlp.str_be]
    · obtain ⟨hp, -⟩ := hp
      omega
    · exact lt_of_lt_of_le (beNat_lt x) (Nat.pow_le_pow_right (by omega) (by omega))
  have ev : getUint64Bytes (UInt64.ofNat ((sig.drop 64).headD 0 + 35 + (if test then 101 else 99) * 2).toNat) =
      Rlp.str (Rlp.be (v.val + 35 + 2 * (if test then 101 else 99))) := by
    rw [hv, Rlp.uint64_eq]
    have key : ∀ (test : Bool) (v : Fin 2), Rlp.str (Rlp.be (UInt64.ofNat (([UInt8.ofNat v.val] : Bytes).headD 0 + 35 +
        (if test then 101 else 99) * 2).toNat).toNat) = Rlp.str (Rlp.be (v.val + 35 + 2 * (if test then 101 else 99))) := by
      decide +kernel
    exact key test v
  have eb : (addSig { emptyTx nonce gasPrice gasLimit amount h [if test then 101 else 99] with r := [], s := [] } sig test) =
      ⟨getUint64Bytes nonce, getUint64Bytes 0, getBigIntBytes gasPrice, getBigIntBytes gasLimit, Rlp.str h, getBigIntBytes amount,
      getLengthBytes 0, getUint64Bytes 0, getUint64Bytes 0, Rlp.str (Rlp.be (v.val + 35 + 2 * (if test then 101 else 99))),
      Rlp.str (Rlp.be (beNat (sig.take 32))), Rlp.str (Rlp.be (beNat ((sig.drop 32).take 32)))⟩ := by
    unfold addSig emptyTx
    simp only
    rw [ev, r32 (by simp) hr, r32 (by simp) hss]
  rw [eb]
  apply toBytes_list (body_str nonce gasPrice gasLimit amount h3 h2 h1 h _ _ _)
  · have l32 : ∀ x : Bytes, x.length ≤ 32 → (Rlp.be (beNat x)).length ≤ 55 := by
      intro x hx
      exact (Rlp.be_length_le _ _).mpr (lt_of_lt_of_le (beNat_lt x) (Nat.pow_le_pow_right (by omega) (by omega)))
    refine items_le h3 h2 h1 (by omega) ?_ (l32 _ (by simp)) (l32 _ (by simp))
    exact (Rlp.be_length_le _ _).mpr (lt_of_le_of_lt (by have := v.isLt; split <;> omega : _ ≤ 300) (by norm_num))
  · rfl

/-- Where C45 fails: transactions that the library created itself, of 57 to 130 bytes, are refused whatever the signature. -/
theorem C45_long_violated (H : Hashes) (C : Moac.Curve) (to_ text hash sigText pk : Bytes) (nonce : UInt64)
    (amount gasLimit gasPrice : Int) (test test' : Bool) (hc : Moac.create H to_ nonce amount gasLimit gasPrice test = .ok (text, hash))
    (hlen : 114 ≤ text.length ∧ text.length ≤ 260) (out : Bytes) :
    Moac.verifyAndCombine H C text sigText pk test' ≠ .ok (true, out) := by
  intro hv
  obtain ⟨h, ha, et, eh⟩ := create_empty hc
  have hal : h.length = 20 := by obtain ⟨x, -, -, hl⟩ := ha; exact hl
  rw [et, Hex.encode_length] at hlen
  obtain ⟨x, hx, e, hb⟩ := toBytes_long (t := emptyTx nonce gasPrice gasLimit amount h [if test then 101 else 99]) (by omega) (by omega)
  obtain ⟨b, sig, pub, t, h1, -, -, -, -, -, -, h8⟩ := combine_true hv
  rw [et, Hex.decode_encode] at h1
  rw [← Res.ok.inj h1, e, List.drop_succ_cons, List.drop_zero, decodeEmpty_shifted hal hx hb] at h8
  cases h8

/-- Such a transaction: price, limit and amount of ten bytes each. -/
example : ∃ text hash, Moac.create toyHashes (asc "0x0000000000000000000000000000000000000001") 300 (2 ^ 79) (2 ^ 79) (2 ^ 79) false =
    .ok (text, hash) ∧ 114 ≤ text.length ∧ text.length ≤ 260 := by
  have ha : IsAddress (asc "0x0000000000000000000000000000000000000001") (List.replicate 19 0 ++ [1]) :=
    ⟨asc "0000000000000000000000000000000000000001", by decide +kernel, by decide +kernel, rfl⟩
  have hb : (getBigIntBytes (2 ^ 79)).length = 11 := by
    unfold getBigIntBytes
    have := Ontology.bigBytes_length_eq (m := ((2 : Int) ^ 79).natAbs) (k := 9) (by norm_num) (by norm_num)
    simp only [List.length_append, this, getLengthBytes, List.length_cons, List.length_nil]
  unfold Moac.create
  rw [create_body ha]
  simp only [Res.bind_ok]
  refine ⟨_, _, rfl, ?_⟩
  rw [Hex.encode_length]
  unfold TxStruct.toBytes TxStruct.body
  have l5 : (getUint64Bytes 300).length = 3 := by decide +kernel
  have l6 : (Rlp.str (if false then [101] else [99])).length = 1 := by decide +kernel
  have l7 : (Rlp.str []).length = 1 := by decide +kernel
  have l8 : (getUint64Bytes 0).length = 1 := by decide +kernel
  have l9 : (getLengthBytes 0).length = 1 := by decide +kernel
  have la : (Rlp.str (List.replicate 19 0 ++ [1])).length = 21 := by decide +kernel
  simp only [List.length_append, hb, l5, l6, l7, l8, l9, la]
  decide +kernel

end Verif
