import Verif.Props.BtcLikeWire
import Verif.Props.CreatePanic
import Verif.Props.CombinePanicHc

/-! C144: exactly when the functions of the older Bitcoin driver crash. -/

namespace Verif
open Spec Spec.Crash Spec.Eip55 Spec.BtcLikeWire

namespace BtcLike
open _root_.Verif.Btc (Vin Vout TxOut Curve takeN take1 concatAll)

/-! ### Creating -/

theorem decodeCheck_panic (H : Hashes) (t : Bytes) : decodeCheck H t = .panic ↔ ShortBase58 Btc.alphabet (H.hash .doubleSha256) 1 t := by
  rw [← CreatePanic.verge_panic]
  unfold decodeCheck Verge.decodeCheck
  cases Base58.decode Btc.alphabet t <;> rfl

theorem bech32Decode_panic (t : Bytes) : bech32Decode t = .panic ↔ ShortBech32 t := by
  rw [← CreatePanic.bech32_panic]
  unfold bech32Decode Bech32.decode
  cases h : Bech32.parse 0x31 t with
  | err => simp
  | panic => simp
  | ok q =>
    simp only [Res.bind_ok]
    split
    · rfl
    split
    · rfl
    cases hu : Bech32.unextendPayload (q.2.take (q.2.length - 6)) with
    | err => simp
    | panic => simp
    | ok r =>
      simp only [Res.bind_ok]
      refine iff_of_false (by simp) ?_
      split
      · rename_i h33
        unfold slice
        rw [if_pos ⟨by omega, by rw [Hex.encode_length]; omega⟩, Res.bind_ok]
        split <;> simp
      · simp

/-- A text that does not begin with the digit zero and stands for at most four bytes has at most six characters. -/
theorem short_text {b t : Bytes} (h : IsBase58 Btc.alphabet b t) (hb : b.length ≤ 4) (h1 : t.head? ≠ some 0x31) : t.length ≤ 6 := by
  unfold IsBase58 base58Digits at h
  have hz : leadingZeros b = 0 := by
    by_contra hz
    obtain ⟨n, hn⟩ := Nat.exists_eq_succ_of_ne_zero hz
    rw [hn, List.replicate_succ] at h
    rcases t with _ | ⟨c, t⟩
    · simp at h
    · simp only [List.map_cons, List.cons_append, List.cons.injEq] at h
      apply h1
      have := h.1
      rw [List.head?_cons, this]
      decide
  rw [hz, List.replicate_zero, List.nil_append] at h
  have hl := congrArg List.length h
  simp only [List.length_map, List.length_reverse] at hl
  rw [hl, Nat.digits_length_le_iff (by omega)]
  have h2 := beNat_lt b
  have h3 : 256 ^ b.length ≤ 256 ^ 4 := Nat.pow_le_pow_right (by omega) hb
  calc beNat b < 256 ^ b.length := h2
    _ ≤ 256 ^ 4 := h3
    _ < 58 ^ 6 := by decide

theorem tb1_short {t r : Bytes} (hp : bech32Prefix <+: t) (hb : bech32Decode t = .ok r) : 6 < t.length := by
  obtain ⟨d, rfl⟩ := hp
  by_contra hl
  have hd : d.length ≤ 3 := by
    have : bech32Prefix.length = 3 := by decide
    rw [List.length_append] at hl
    omega
  unfold bech32Decode at hb
  obtain ⟨⟨p, v⟩, e1, e2⟩ := Res.bind_eq_ok.mp hb
  simp only at e2
  split at e2
  · cases e2
  split at e2
  · cases e2
  rename_i hv
  apply hv
  have : v.length < 6 := by
    unfold Bech32.parse at e1
    split at e1
    · cases e1
    split at e1
    · cases e1
    split at e1
    · cases e1
    split at e1
    · cases e1
    rename_i value hval
    simp only [Res.ok.injEq, Prod.mk.injEq] at e1
    obtain ⟨_, rfl⟩ := e1
    have hrev : ∀ (l : Bytes) (vs : List Nat), Bech32.revAll l = some vs → vs.length = l.length := by
      intro l
      induction l with
      | nil => intro vs h; simp only [Bech32.revAll, Option.some.injEq] at h; subst h; rfl
      | cons c l ih =>
        intro vs h
        rw [Bech32.revAll] at h
        split at h
        · rename_i x y h1 h2
          simp only [Option.some.injEq] at h
          subst h
          simp [ih _ h2]
        · cases h
    rw [hrev _ _ hval, List.length_drop, List.length_append]
    have : bech32Prefix.length = 3 := by decide
    omega
  exact this

/-- An output crashes. -/
theorem newTxOut_panic (H : Hashes) (w : Vout) : newTxOut H w = .panic ↔
    if asc "tb1" <+: w.address then ShortBech32 w.address else ShortBase58 Btc.alphabet (H.hash .doubleSha256) 1 w.address := by
  unfold newTxOut bech32Out
  have hpost : ∀ first : List TxOut, ((decodeCheck H w.address >>= fun (x : UInt8 × Bytes) =>
      if x.2.length ≠ 0x14 then (.err : Res (List TxOut))
      else if x.1 = p2pkhPrefix then
        .ok (first ++ [⟨leBytes 8 w.amount.toNat, 0x76 :: (0xa9 :: UInt8.ofNat x.2.length :: x.2 ++ [0x88, 0xac])⟩])
      else if x.1 = p2shPrefix then .ok (first ++ [⟨leBytes 8 w.amount.toNat, 0xa9 :: UInt8.ofNat x.2.length :: x.2 ++ [0x87]⟩])
      else .err) = .panic) ↔ decodeCheck H w.address = .panic := by
    intro first
    rw [DecPanic.bind_panic]
    rintro ⟨p, h⟩
    simp only
    split
    · simp
    split
    · simp
    split <;> simp
  by_cases hp : asc "tb1" <+: w.address
  · rw [if_pos (show bech32Prefix.isPrefixOf w.address = true from List.isPrefixOf_iff_prefix.mpr hp), if_pos hp, ← bech32Decode_panic]
    cases hb : bech32Decode w.address with
    | err => simp
    | panic => simp
    | ok r =>
      simp only [Res.bind_ok]
      refine iff_of_false ?_ (by simp)
      intro h
      have h' := (hpost _).mp h
      rw [decodeCheck_panic] at h'
      obtain ⟨b, hb58, hs⟩ := h'
      have hlen : b.length ≤ 4 := by
        rcases hs with hs | ⟨d, hd, rfl⟩
        · omega
        · rw [List.length_append, List.length_take]; omega
      have := tb1_short hp hb
      have := short_text hb58 hlen (by
        obtain ⟨d, hd⟩ := hp
        rw [← hd]
        simp [asc])
      omega
  · rw [if_neg (show ¬ bech32Prefix.isPrefixOf w.address = true by rw [List.isPrefixOf_iff_prefix]; exact hp), if_neg hp, ← decodeCheck_panic]
    simp only [Res.bind_ok]
    exact hpost []

theorem newTxIn_good (lt : UInt32) (r : Bool) (v : Vin) : (∃ i, newTxIn lt r v = .ok i) ↔ ∃ id, HexText v.txid id ∧ id.length = 32 := by
  unfold newTxIn
  constructor
  · rintro ⟨i, h⟩
    cases hr : Btc.reverseHexToBytes v.txid with
    | err => rw [hr] at h; cases h
    | panic => rw [hr] at h; cases h
    | ok b =>
      rw [hr] at h
      simp only at h
      split at h
      · cases h
      rename_i hl
      exact ⟨b.reverse, (CreatePanic.reverse_iff _ _).mp hr, by simpa using hl⟩
  · rintro ⟨id, h1, h2⟩
    have := (CreatePanic.reverse_iff v.txid id.reverse).mpr (by simpa using h1)
    rw [this]
    simp only
    rw [if_neg (by simp [h2])]
    exact ⟨_, rfl⟩

theorem newTxIn_ne_panic (lt : UInt32) (r : Bool) (v : Vin) : newTxIn lt r v ≠ .panic := by
  unfold newTxIn
  cases hr : Btc.reverseHexToBytes v.txid with
  | err => simp
  | panic => exact absurd hr (CreatePanic.reverse_ne_panic _)
  | ok b => simp only; split <;> simp

theorem newTxIns_good (lt : UInt32) (r : Bool) (vs : List Vin) :
    (∃ i, newTxIns lt r vs = .ok i) ↔ ∀ v ∈ vs, ∃ id, HexText v.txid id ∧ id.length = 32 := by
  rw [CreatePanic.loop_ok (L := newTxIns lt r) (f := newTxIn lt r) rfl (fun _ _ => rfl)]
  simp only [newTxIn_good]

theorem newTxIns_ne_panic (lt : UInt32) (r : Bool) (vs : List Vin) : newTxIns lt r vs ≠ .panic :=
  CreatePanic.loop_ne_panic (L := newTxIns lt r) (f := newTxIn lt r) rfl (fun _ _ => rfl) (newTxIn_ne_panic lt r) vs

theorem newTxIns_script {lt : UInt32} {r : Bool} : ∀ {vs : List Vin} {is : List TxIn}, newTxIns lt r vs = .ok is →
    is.length = vs.length ∧ ∀ i ∈ is, i.script = [] ∧ i.txid.length = 32 ∧ i.vout.length = 4
  | [], is, h => by
    simp only [newTxIns, Res.ok.injEq] at h
    subst h
    simp
  | v :: vs, is, h => by
    rw [newTxIns] at h
    obtain ⟨i, e1, h⟩ := Res.bind_eq_ok.mp h
    obtain ⟨is', e2, h⟩ := Res.bind_eq_ok.mp h
    simp only [Res.ok.injEq] at h
    subst h
    obtain ⟨k1, k2⟩ := newTxIns_script e2
    refine ⟨by simp [k1], ?_⟩
    rw [List.forall_mem_cons]
    refine ⟨?_, k2⟩
    unfold newTxIn at e1
    split at e1
    · rename_i txid _
      split at e1
      · cases e1
      · rename_i hl
        simp only [Res.ok.injEq] at e1
        subst e1
        refine ⟨rfl, by simpa using hl, by simp⟩
    · cases e1
    · cases e1

theorem encodeIn_ne_panic (f : TxIn → Bytes) (i : TxIn) : encodeIn f i ≠ .panic := by
  unfold encodeIn; split <;> simp

theorem encodeOut_ne_panic (o : TxOut) : encodeOut o ≠ .panic := by
  unfold encodeOut; split <;> simp

theorem encodeTx_ne_panic (H : Hashes) (t : Tx) (hm : t.isMultiSig = false) (hw : t.witness = []) : encodeTx H t ≠ .panic := by
  unfold encodeTx
  split
  · simp
  split
  · simp
  rw [if_neg (by simp [hm]), hw]
  have h1 := CreatePanic.concat_ne_panic (encodeIn TxIn.script) (encodeIn_ne_panic _) t.vins
  have h2 := CreatePanic.concat_ne_panic encodeOut encodeOut_ne_panic t.vouts
  refine Btc.bind_ne_panic h1 (fun a _ => ?_)
  refine Btc.bind_ne_panic h2 (fun b _ => ?_)
  simp [concatAll]

theorem fresh_not_multi {is : List TxIn} (h : ∀ i ∈ is, i.script = []) (v : Bytes) (os : List TxOut) (ws : List SigPub) (lt : Bytes) :
    (⟨v, is, os, ws, lt⟩ : Tx).isMultiSig = false := by
  unfold Tx.isMultiSig
  match is, h with
  | [], _ => rfl
  | [i], h => simp [h i (by simp)]
  | _ :: _ :: _, _ => rfl

theorem newTxOut_ok_ne {H : Hashes} {w : Vout} {os : List TxOut} (h : newTxOut H w = .ok os) : os ≠ [] ∧ ∀ o ∈ os, o.amount.length = 8 := by
  unfold newTxOut at h
  obtain ⟨first, e1, h⟩ := Res.bind_eq_ok.mp h
  obtain ⟨⟨p, d⟩, e2, h⟩ := Res.bind_eq_ok.mp h
  have hf : ∀ o ∈ first, o.amount.length = 8 := by
    unfold bech32Out at e1
    split at e1
    · obtain ⟨r, _, e1⟩ := Res.bind_eq_ok.mp e1
      simp only [Res.ok.injEq] at e1
      subst e1
      simp
    · simp only [Res.ok.injEq] at e1
      subst e1
      simp
  simp only at h
  split at h
  · cases h
  split at h
  · simp only [Res.ok.injEq] at h
    subst h
    refine ⟨by simp, ?_⟩
    intro o ho
    rcases List.mem_append.mp ho with ho | ho
    · exact hf o ho
    · simp only [List.mem_singleton] at ho; subst ho; simp
  split at h
  · simp only [Res.ok.injEq] at h
    subst h
    refine ⟨by simp, ?_⟩
    intro o ho
    rcases List.mem_append.mp ho with ho | ho
    · exact hf o ho
    · simp only [List.mem_singleton] at ho; subst ho; simp
  · cases h

end BtcLike

open BtcLike

/-- A request that is in order but for its outputs: transaction ids that are hex texts of 32 bytes. -/
def BtcLike.GoodIds (vins : List Btc.Vin) : Prop := ∀ v ∈ vins, ∃ id, HexText v.txid id ∧ id.length = 32

/-- C144, creating: `CreateEmptyRawTransaction` crashes if and only if the transaction ids are in order and, behind outputs that could be paid (given some
input to pay them from), there is one whose address holds too little: under the prefix `tb1` a bech32 text without a whole byte of data, otherwise a
Base58 text of fewer than four bytes, or of no byte and its checksum. Unlike in the other packages the request may be without inputs. -/
theorem C144_create (H : Hashes) (vins : List Btc.Vin) (vouts : List Btc.Vout) (lt : UInt32) (r : Bool) :
    createEmpty H vins vouts lt r = .panic ↔ GoodIds vins ∧
      FirstBad (fun w => ∃ vins' text, createEmpty H vins' [w] lt r = .ok text)
        (fun w => if asc "tb1" <+: w.address then ShortBech32 w.address else ShortBase58 Btc.alphabet (H.hash .doubleSha256) 1 w.address) vouts := by
  have hgood : ∀ w, (∃ os, newTxOut H w = .ok os) ↔ ∃ vins' text, createEmpty H vins' [w] lt r = .ok text := by
    intro w
    constructor
    · rintro ⟨os, ho⟩
      obtain ⟨hne, h8⟩ := newTxOut_ok_ne ho
      refine ⟨[⟨Hex.encode (List.replicate 32 0), 0⟩], ?_⟩
      obtain ⟨is, hi⟩ := (newTxIns_good lt r [⟨Hex.encode (List.replicate 32 0), 0⟩]).mpr (by
        intro v hv
        simp only [List.mem_singleton] at hv
        subst hv
        exact ⟨List.replicate 32 0, (Eip.decode_iff _ _).mp (Hex.decode_encode _), by simp⟩)
      obtain ⟨hl, hs⟩ := newTxIns_script hi
      have hne' : is ≠ [] := by rintro rfl; simp at hl
      unfold createEmpty newTransaction newTxOuts
      rw [hi, Res.bind_ok, BtcVariants.appendAll, ho, Res.bind_ok, BtcVariants.appendAll, Res.bind_ok, Res.bind_ok, Res.bind_ok, List.append_nil]
      obtain ⟨a, ha⟩ := (CreatePanic.concat_ok (encodeIn TxIn.script) is).mpr (by
        intro i him
        obtain ⟨_, k1, k2⟩ := hs i him
        unfold encodeIn
        rw [if_neg (by simp [k1, k2])]
        exact ⟨_, rfl⟩)
      obtain ⟨b, hb⟩ := (CreatePanic.concat_ok encodeOut os).mpr (by
        intro o ho
        unfold encodeOut
        rw [if_neg (by simp [h8 o ho])]
        exact ⟨_, rfl⟩)
      unfold encodeTx
      simp only
      rw [if_neg hne', if_neg hne, if_neg (by rw [fresh_not_multi (fun i hi => (hs i hi).1)]; simp), ha, Res.bind_ok, hb, Res.bind_ok]
      exact ⟨_, rfl⟩
    · rintro ⟨vins', text, h⟩
      unfold createEmpty newTransaction newTxOuts at h
      obtain ⟨t, h, _⟩ := Res.bind_eq_ok.mp h
      obtain ⟨is, _, h⟩ := Res.bind_eq_ok.mp h
      obtain ⟨os, h, _⟩ := Res.bind_eq_ok.mp h
      rw [BtcVariants.appendAll] at h
      obtain ⟨o, h, _⟩ := Res.bind_eq_ok.mp h
      exact ⟨o, h⟩
  have hloop := CreatePanic.loop_panic (L := BtcVariants.appendAll (newTxOut H)) (f := newTxOut H) rfl (fun _ _ => rfl) vouts
  simp only [hgood, newTxOut_panic] at hloop
  rw [GoodIds, ← newTxIns_good lt r, ← hloop]
  unfold createEmpty newTransaction newTxOuts
  cases hi : newTxIns lt r vins with
  | err => simp
  | panic => exact absurd hi (newTxIns_ne_panic _ _ _)
  | ok is =>
    simp only [Res.bind_ok, Res.ok.injEq, exists_eq', true_and]
    cases ho : BtcVariants.appendAll (newTxOut H) vouts with
    | err => simp
    | panic => simp
    | ok os =>
      simp only [Res.bind_ok]
      refine iff_of_false ?_ (by simp)
      refine Btc.bind_ne_panic (encodeTx_ne_panic H _ ?_ rfl) (fun a _ => by simp)
      exact fresh_not_multi (fun i h => ((newTxIns_script hi).2 i h).1) _ _ _ _

namespace BtcLike
open _root_.Verif.Btc (Vin Vout TxOut Curve takeN take1 concatAll)

/-! ### Hashes -/

theorem allAt_cons {script : Bytes} {i : Nat} {x : UInt8} {l : List (Nat × UInt8)} :
    allAt script ((i, x) :: l) = if script.length ≤ i then .panic else if script[i]? = some x then allAt script l else .ok false := by
  rw [allAt]
  unfold index
  by_cases h : script.length ≤ i
  · rw [if_pos h, List.getElem?_eq_none h]; rfl
  · rw [if_neg h, List.getElem?_eq_getElem (by omega)]
    simp only [Res.bind_ok, Option.some.injEq]

theorem allAt_nil {script : Bytes} : allAt script [] = .ok true := rfl

theorem prefix3 {l : Bytes} {a b c : UInt8} (hl : 3 ≤ l.length) : [a, b, c] <+: l ↔ l[0]? = some a ∧ l[1]? = some b ∧ l[2]? = some c := by
  match l, hl with
  | x :: y :: z :: l, _ =>
    simp only [List.cons_prefix_cons, List.nil_prefix, and_true, List.getElem?_cons_zero, List.getElem?_cons_succ, Option.some.injEq]
    constructor <;> rintro ⟨rfl, rfl, rfl⟩ <;> exact ⟨rfl, rfl, rfl⟩

theorem prefix2 {l : Bytes} {a b : UInt8} (hl : 2 ≤ l.length) : [a, b] <+: l ↔ l[0]? = some a ∧ l[1]? = some b := by
  match l, hl with
  | x :: y :: l, _ =>
    simp only [List.cons_prefix_cons, List.nil_prefix, and_true, List.getElem?_cons_zero, List.getElem?_cons_succ, Option.some.injEq]
    constructor <;> rintro ⟨rfl, rfl⟩ <;> exact ⟨rfl, rfl⟩

theorem suffix25 {l : Bytes} {a b : UInt8} (hl : l.length = 25) : [a, b] <:+ l ↔ l[23]? = some a ∧ l[24]? = some b := by
  constructor
  · rintro ⟨t, rfl⟩
    have : t.length = 23 := by simp at hl; omega
    constructor
    · rw [List.getElem?_append_right (by omega), this]; rfl
    · rw [List.getElem?_append_right (by omega), this]; rfl
  · rintro ⟨h1, h2⟩
    refine ⟨l.take 23, ?_⟩
    have e : l.drop 23 = [a, b] := by
      rw [List.drop_eq_getElem_cons (by omega), List.drop_eq_getElem_cons (by omega), List.drop_eq_nil_of_le (by omega)]
      rw [List.getElem?_eq_getElem (by omega), Option.some.injEq] at h1 h2
      simp only [h1, h2]
    rw [← e, List.take_append_drop]

/-- The type of a locking script of an accepted length. -/
theorem kind_eq {lock : Bytes} (hl : lock.length = 22 ∨ lock.length = 23 ∨ lock.length = 25) : checkScriptType lock =
    if [0x76, 0xa9, 0x14] <+: lock then
      (if lock.length ≤ 23 then .panic else if [0x88, 0xac] <:+ lock then .ok .p2pkh else .ok .unknown)
    else if [0xa9, 0x14] <+: lock then
      (if lock.length ≤ 22 then .panic else if lock[22]? = some 0x87 then .ok .p2sh else .ok .unknown)
    else if [0x00, 0x14] <+: lock then .ok .bech32 else .ok .unknown := by
  simp only [prefix3 (show 3 ≤ lock.length by omega), prefix2 (show 2 ≤ lock.length by omega)]
  unfold checkScriptType
  simp only [allAt_cons, allAt_nil, if_neg (show ¬ lock.length ≤ 0 by omega), if_neg (show ¬ lock.length ≤ 1 by omega), if_neg (show ¬ lock.length ≤ 2 by omega)]
  by_cases p0 : lock[0]? = some 0x76
  · have q0 : lock[0]? ≠ some 0xa9 := by rw [p0]; decide
    have r0 : lock[0]? ≠ some 0x00 := by rw [p0]; decide
    simp only [p0, true_and, if_true]
    by_cases p12 : lock[1]? = some 0xa9 ∧ lock[2]? = some 0x14
    · rw [if_pos p12, if_pos p12.1, if_pos p12.2]
      by_cases h23 : lock.length ≤ 23
      · rw [if_pos h23, if_pos h23]; rfl
      · rw [if_neg h23, if_neg h23]
        simp only [suffix25 (show lock.length = 25 by omega)]
        rw [if_neg (show ¬ lock.length ≤ 24 by omega)]
        by_cases p3 : lock[23]? = some 0x88 <;> by_cases p4 : lock[24]? = some 0xac <;> simp [p3, p4]
    · rw [if_neg p12]
      have : (if lock[1]? = some 0xa9 then if lock[2]? = some 0x14 then
          (if lock.length ≤ 23 then (.panic : Res Bool) else if lock[23]? = some 0x88 then
            if lock.length ≤ 24 then .panic else if lock[24]? = some 0xac then .ok true else .ok false
            else .ok false) else .ok false else .ok false) = .ok false := by
        by_cases p1 : lock[1]? = some 0xa9
        · rw [if_pos p1, if_neg (fun p2 => p12 ⟨p1, p2⟩)]
        · rw [if_neg p1]
      rw [this]
      simp
  · simp only [p0, false_and, if_false]
    by_cases q0 : lock[0]? = some 0xa9
    · simp only [q0, true_and, if_true]
      by_cases q1 : lock[1]? = some 0x14
      · simp only [q1, if_true]
        by_cases h22 : lock.length ≤ 22
        · simp [h22]
        · by_cases q2 : lock[22]? = some 0x87 <;> simp [h22, q2]
      · simp [q1]
    · by_cases r0 : lock[0]? = some 0x00 <;> by_cases r1 : lock[1]? = some 0x14 <;> simp [q0, r0, r1]

/-- The redeem script. -/
theorem code_cases (redeem : Bytes) : scriptCode redeem =
    match Hex.decode redeem with
    | .ok r => if r = [] ∨ r = [0x00] then .panic else if [0x00, 0x14] <+: r then
        (if r.length = 22 then .ok ([0x76, 0xa9] ++ UInt8.ofNat (r.drop 2).length :: r.drop 2 ++ [0x88, 0xac]) else .err) else .ok r
    | .err => .err
    | .panic => .panic := by
  unfold scriptCode
  cases hd : Hex.decode redeem with
  | err => rfl
  | panic => rfl
  | ok r =>
    simp only [Res.bind_ok, allAt_cons, allAt_nil]
    match r with
    | [] => simp
    | [x] =>
      by_cases hx : x = 0
      · subst hx; simp
      · have : ¬ ([0x00, 0x14] : Bytes) <+: [x] := by
          intro h; have := h.length_le; simp at this
        simp [hx]
    | x :: y :: r =>
      simp only [prefix2 (show 2 ≤ (x :: y :: r).length by simp)]
      by_cases hx : x = 0
      · by_cases hy : y = 0x14
        · subst hx hy
          by_cases hr : r.length = 20 <;> simp [hr]
        · subst hx; simp [hy]
      · simp [hx]

theorem segwit_cases (H : Hashes) (t : Tx) (redeem : Bytes) (a : UInt64) (i : TxIn) :
    (segwitBytes H t redeem a i = .panic ↔ (Eip55.HexText redeem [] ∨ Eip55.HexText redeem [0x00])) ∧
    ((∃ b, segwitBytes H t redeem a i = .ok b) ↔ ∃ r, Eip55.HexText redeem r ∧ r ≠ [] ∧ r ≠ [0x00] ∧ ([0x00, 0x14] <+: r → r.length = 22)) := by
  unfold segwitBytes
  rw [code_cases]
  simp only [← Eip.decode_iff]
  cases hd : Hex.decode redeem with
  | err => simp
  | panic => exact absurd hd (Hex.decode_ne_panic _)
  | ok r =>
    simp only [Res.ok.injEq]
    by_cases h1 : r = [] ∨ r = [0x00]
    · rw [if_pos h1]
      refine ⟨iff_of_true rfl h1, iff_of_false (by simp) ?_⟩
      rintro ⟨x, rfl, k1, k2, _⟩
      tauto
    · rw [if_neg h1]
      by_cases h2 : [0x00, 0x14] <+: r
      · by_cases h3 : r.length = 22
        · rw [if_pos h2, if_pos h3]
          exact ⟨iff_of_false (by simp) h1, iff_of_true ⟨_, rfl⟩ ⟨r, rfl, by tauto, by tauto, fun _ => h3⟩⟩
        · rw [if_pos h2, if_neg h3]
          refine ⟨iff_of_false (by simp) h1, iff_of_false (by simp) ?_⟩
          rintro ⟨x, rfl, _, _, k⟩
          exact h3 (k h2)
      · rw [if_neg h2]
        exact ⟨iff_of_false (by simp) h1, iff_of_true ⟨_, rfl⟩ ⟨r, rfl, by tauto, by tauto, fun h => absurd h h2⟩⟩

/-- What a decoded transaction is like. -/
structure Read (t : Tx) : Prop where
  ins : ∀ i ∈ t.vins, InOk i
  outs : ∀ o ∈ t.vouts, OutOk o
  wits : ∀ w ∈ t.witness, w.signature = none ∨ ∃ sig, w.signature = some sig ∧ sig.length = 64 ∧ w.pubkey.length = 33

theorem sigItem_length {s sig pub : Bytes} (h : SigItem s sig pub) : sig.length = 64 ∧ pub.length = 33 := by
  obtain ⟨rl, sl, wr, ws, r, v, ⟨h1, _⟩, ⟨h2, _⟩, h3, rfl, _⟩ := h
  exact ⟨by simp [h1, h2], h3⟩

theorem stacks_length : ∀ {wits : List Bytes} {ws : List SigPub}, List.Forall₂ Stack wits ws →
    ∀ w ∈ ws, w.signature = none ∨ ∃ sig, w.signature = some sig ∧ sig.length = 64 ∧ w.pubkey.length = 33
  | _, _, .nil => by simp
  | _, _, .cons h f => by
    rw [List.forall_mem_cons]
    refine ⟨?_, stacks_length f⟩
    rcases h with ⟨_, rfl⟩ | ⟨s, sig, pub, _, _, h, rfl⟩
    · exact .inl rfl
    · obtain ⟨k1, k2⟩ := sigItem_length h
      exact .inr ⟨sig, rfl, k1, k2⟩

theorem isTx_read {b : Bytes} {x : Tx} (h : IsTx b x) : Read x := by
  obtain ⟨body, ⟨_, _, h1, h2, _⟩, _, _, h⟩ := h
  refine ⟨h1, h2, ?_⟩
  rcases h with ⟨_, hw, _⟩ | ⟨wits, f, _⟩
  · rw [hw]; simp
  · exact stacks_length f

theorem witnessScript_ok {sig pub : Bytes} (h : 33 ≤ sig.length) (ty : UInt8) : ∃ s, witnessScript sig pub ty = .ok s ∧ 34 ≤ s.length := by
  unfold witnessScript slice
  rw [if_pos ⟨by omega, by omega⟩, Res.bind_ok]
  have hi : ∀ l : Bytes, l ≠ [] → ∃ l', witnessInt l = .ok l' ∧ l.length ≤ l'.length := by
    intro l hl
    match l, hl with
    | x :: t, _ =>
      rw [witnessInt]
      split
      · exact ⟨_, rfl, by simp⟩
      · exact ⟨_, rfl, by simp⟩
  have hl1 : ((sig.take 32).drop 0).length = 32 := by simp; omega
  obtain ⟨r, hr, h1⟩ := hi ((sig.take 32).drop 0) (by intro h0; rw [h0] at hl1; simp at hl1)
  obtain ⟨s, hs, h2⟩ := hi (sig.drop 32) (by intro h0; have := congrArg List.length h0; simp at this; omega)
  rw [hr, Res.bind_ok, hs, Res.bind_ok]
  refine ⟨_, rfl, ?_⟩
  simp only [List.length_append, List.length_cons]
  omega

theorem witnessScript_short {sig pub : Bytes} (h : sig.length < 33) (ty : UInt8) : witnessScript sig pub ty = .panic := by
  unfold witnessScript slice
  by_cases h2 : 32 ≤ sig.length
  · rw [if_pos ⟨by omega, by omega⟩, Res.bind_ok]
    have hd : sig.drop 32 = [] := List.drop_eq_nil_of_le (by omega)
    rw [hd]
    cases hx : witnessInt ((sig.take 32).drop 0) with
    | panic => rfl
    | ok r => rfl
    | err =>
      unfold witnessInt at hx
      split at hx
      · cases hx
      · split at hx <;> cases hx
  · rw [if_neg (by omega)]; rfl

theorem encodeWitness_panic (w : SigPub) : (encodeWitness w = .panic ↔ ∃ sig, w.signature = some sig ∧ sig.length < 33) ∧
    ((∃ b, encodeWitness w = .ok b) ↔ (w.signature = none ∨ ∃ sig, w.signature = some sig ∧ 33 ≤ sig.length)) := by
  unfold encodeWitness
  cases hs : w.signature with
  | none => simp
  | some sig =>
    simp only [Option.some.injEq, exists_eq_left', reduceCtorEq, false_or]
    by_cases h : sig.length < 33
    · rw [witnessScript_short h]
      exact ⟨iff_of_true rfl h, iff_of_false (by simp) (by omega)⟩
    · obtain ⟨s, hs, _⟩ := witnessScript_ok (sig := sig) (pub := w.pubkey) (by omega) 1
      rw [hs]
      exact ⟨iff_of_false (by simp) h, iff_of_true ⟨_, rfl⟩ (by omega)⟩

theorem encodeMulti_panic (w : SigPub) : (encodeMultiWitness w = .panic ↔ ∃ sig, w.signature = some sig ∧ sig.length < 33) ∧
    ((∃ b, encodeMultiWitness w = .ok b) ↔ ∃ sig, w.signature = some sig ∧ 33 ≤ sig.length) := by
  unfold encodeMultiWitness
  cases hs : w.signature with
  | none => simp
  | some sig =>
    simp only [Option.some.injEq, exists_eq_left']
    by_cases h : sig.length < 33
    · rw [witnessScript_short h]
      exact ⟨iff_of_true rfl h, iff_of_false (by simp) (by omega)⟩
    · obtain ⟨s, hs, hl⟩ := witnessScript_ok (sig := sig) (pub := w.pubkey) (by omega) 1
      rw [hs, Res.bind_ok]
      unfold slice
      rw [if_pos ⟨by omega, by omega⟩]
      exact ⟨iff_of_false (by simp) h, iff_of_true ⟨_, rfl⟩ (by omega)⟩

theorem ins_written {is : List TxIn} (h : ∀ i ∈ is, i.txid.length = 32 ∧ i.vout.length = 4) (f : TxIn → Bytes) : ∃ b, concatAll (encodeIn f) is = .ok b := by
  rw [CreatePanic.concat_ok]
  intro i hi
  unfold encodeIn
  rw [if_neg (by simp [h i hi])]
  exact ⟨_, rfl⟩

theorem outs_written {os : List TxOut} (h : ∀ o ∈ os, o.amount.length = 8) : ∃ b, concatAll encodeOut os = .ok b := by
  rw [CreatePanic.concat_ok]
  intro o ho
  unfold encodeOut
  rw [if_neg (by simp [h o ho])]
  exact ⟨_, rfl⟩

theorem withScript_encoded (H : Hashes) {t : Tx} (ht : Read t) (hv : t.vins ≠ []) (k : Nat) {lock : Bytes} (hl : lock.getLast? ≠ some 0xae) :
    encodeTx H (withScript t k lock) ≠ .panic ∧ ((∃ b, encodeTx H (withScript t k lock) = .ok b) ↔ t.vouts ≠ []) := by
  have hi : ∀ i ∈ (withScript t k lock).vins, i.txid.length = 32 ∧ i.vout.length = 4 := by
    intro i hi
    obtain ⟨j, hj, rfl⟩ := List.getElem_of_mem hi
    simp only [withScript, List.getElem_mapIdx]
    have := ht.ins _ (List.getElem_mem (l := t.vins) (n := j) (by simpa [withScript] using hj))
    exact ⟨this.1, this.2.1⟩
  have hm : (withScript t k lock).isMultiSig = false := by
    unfold Tx.isMultiSig withScript
    match hh : t.vins with
    | [] => rfl
    | [i] =>
      simp only [List.mapIdx_cons, List.mapIdx_nil]
      by_cases h0 : 0 = k
      · simp [if_pos h0, hl]
      · simp [if_neg h0]
    | _ :: _ :: _ => simp
  have hvn : (withScript t k lock).vins ≠ [] := by simpa [withScript] using hv
  obtain ⟨a, ha⟩ := ins_written hi TxIn.script
  obtain ⟨b, hb⟩ := outs_written (os := t.vouts) (fun o ho => (ht.outs o ho).1)
  obtain ⟨c, hc⟩ := (CreatePanic.concat_ok encodeWitness t.witness).mpr (by
    intro w hw
    rw [(encodeWitness_panic w).2]
    rcases ht.wits w hw with h | ⟨sig, h, h64, _⟩
    · exact .inl h
    · exact .inr ⟨sig, h, by omega⟩)
  unfold encodeTx
  rw [if_neg hvn]
  by_cases ho : t.vouts = []
  · rw [if_pos (show (withScript t k lock).vouts = [] from ho)]
    exact ⟨by simp, iff_of_false (by simp) (by simpa using ho)⟩
  · rw [if_neg (show ¬ (withScript t k lock).vouts = [] from ho), if_neg (by simp [hm]), ha, Res.bind_ok,
      show concatAll encodeOut (withScript t k lock).vouts = .ok b from hb, Res.bind_ok,
      show concatAll encodeWitness (withScript t k lock).witness = .ok c from hc, Res.bind_ok]
    exact ⟨by simp, iff_of_true ⟨_, rfl⟩ ho⟩

/-- One hash. -/
theorem hashOne_cases (H : Hashes) {t : Tx} (ht : Read t) (k : Nat) (hk : k < t.vins.length) (u : TxUnlock) :
    (hashOne H t k u = .panic ↔ CrashUnlock u) ∧ ((∃ h, hashOne H t k u = .ok h) ↔ GoodUnlock (decide (t.vouts ≠ [])) u) := by
  unfold hashOne CrashUnlock GoodUnlock
  simp only [← Eip.decode_iff u.lockScript]
  cases hd : Hex.decode u.lockScript with
  | err => simp
  | panic => exact absurd hd (Hex.decode_ne_panic _)
  | ok lock =>
    simp only [Res.bind_ok, Res.ok.injEq, exists_eq_left']
    by_cases hl : lock.length = 22 ∨ lock.length = 23 ∨ lock.length = 25
    swap
    · rw [if_pos (by omega)]
      refine ⟨iff_of_false (by simp) ?_, iff_of_false (by simp) ?_⟩
      · rintro (⟨h, _⟩ | ⟨h, _⟩ | ⟨h, _⟩) <;> omega
      · rintro (⟨h, _⟩ | ⟨h, _⟩ | ⟨h, _⟩) <;> omega
    rw [if_neg (by omega)]
    have hidx : index t.vins k = .ok t.vins[k] := by unfold index; rw [List.getElem?_eq_getElem hk]
    rw [hidx, Res.bind_ok, kind_eq hl]
    have hne : t.vins ≠ [] := by rintro h; rw [h] at hk; simp at hk
    by_cases p1 : [0x76, 0xa9, 0x14] <+: lock
    · have n2 : ¬ [0xa9, 0x14] <+: lock := by
        rw [prefix2 (by omega)]; rw [prefix3 (by omega)] at p1; rw [p1.1]; simp
      have n3 : ¬ [0x00, 0x14] <+: lock := by
        rw [prefix2 (by omega)]; rw [prefix3 (by omega)] at p1; rw [p1.1]; simp
      simp only [p1, n2, n3, if_true, and_true, and_false, false_and, or_false, true_and]
      by_cases h23 : lock.length ≤ 23
      · rw [if_pos h23]
        exact ⟨iff_of_true rfl (by omega), iff_of_false (by simp) (by rintro ⟨h, _⟩; omega)⟩
      rw [if_neg h23]
      by_cases hs : [0x88, 0xac] <:+ lock
      · rw [if_pos hs, Res.bind_ok]
        obtain ⟨w1, w2⟩ := withScript_encoded H ht hne k (lock := lock) (by
          obtain ⟨x, rfl⟩ := hs; simp)
        simp only [decide_eq_true_eq]
        cases he : encodeTx H (withScript t k lock) with
        | panic => exact absurd he w1
        | err =>
          rw [he] at w2
          refine ⟨iff_of_false (by simp) (by omega), iff_of_false (by simp) ?_⟩
          rintro ⟨_, _, h⟩
          obtain ⟨b, hb⟩ := w2.mpr h
          cases hb
        | ok b =>
          rw [he] at w2
          exact ⟨iff_of_false (by simp) (by omega), iff_of_true ⟨_, rfl⟩ ⟨by omega, hs, w2.mp ⟨b, rfl⟩⟩⟩
      · rw [if_neg hs, Res.bind_ok]
        exact ⟨iff_of_false (by simp) (by omega), iff_of_false (by simp) (by rintro ⟨_, h, _⟩; exact hs h)⟩
    · simp only [p1, if_false, and_false, false_and, false_or]
      by_cases p2 : [0xa9, 0x14] <+: lock
      · have n3 : ¬ [0x00, 0x14] <+: lock := by
          rw [prefix2 (by omega)]; rw [prefix2 (by omega)] at p2; rw [p2.1]; simp
        simp only [p2, n3, if_true, and_true, and_false, or_false, true_and]
        by_cases h22 : lock.length ≤ 22
        · rw [if_pos h22]
          refine ⟨iff_of_true rfl (by omega), iff_of_false (by simp) (by rintro ⟨h, _⟩; omega)⟩
        rw [if_neg h22]
        have hl' : lock.length = 23 ∨ lock.length = 25 := by omega
        by_cases h87 : lock[22]? = some 0x87
        · rw [if_pos h87, Res.bind_ok]
          obtain ⟨s1, s2⟩ := segwit_cases H t u.redeemScript u.amount t.vins[k]
          simp only [hl', h87, true_and, show ¬ lock.length = 22 by omega, false_or]
          rw [← s1, ← s2]
          cases segwitBytes H t u.redeemScript u.amount t.vins[k] with
          | panic => exact ⟨iff_of_true rfl rfl, iff_of_false (by simp) (by simp)⟩
          | err => exact ⟨iff_of_false (by simp) (by simp), iff_of_false (by simp) (by simp)⟩
          | ok b => exact ⟨iff_of_false (by simp) (by simp), iff_of_true ⟨_, rfl⟩ ⟨_, rfl⟩⟩
        · rw [if_neg h87, Res.bind_ok]
          refine ⟨iff_of_false (by simp) ?_, iff_of_false (by simp) ?_⟩
          · rintro (h | ⟨_, h, _⟩)
            · omega
            · exact h87 h
          · rintro ⟨_, h, _⟩; exact h87 h
      · simp only [p2, if_false, and_false, false_and, false_or]
        by_cases p3 : [0x00, 0x14] <+: lock
        · rw [if_pos p3, Res.bind_ok]
          obtain ⟨s1, s2⟩ := segwit_cases H t u.lockScript u.amount t.vins[k]
          simp only [p3, and_true]
          have hf : ¬ (Eip55.HexText u.lockScript [] ∨ Eip55.HexText u.lockScript [0x00]) := by
            simp only [← Eip.decode_iff, hd, Res.ok.injEq]
            rintro (h | h) <;> rw [h] at hl <;> simp at hl
          have hg : (∃ r, Eip55.HexText u.lockScript r ∧ r ≠ [] ∧ r ≠ [0x00] ∧ ([0x00, 0x14] <+: r → r.length = 22)) ↔ lock.length = 22 := by
            simp only [← Eip.decode_iff, hd, Res.ok.injEq, exists_eq_left']
            constructor
            · rintro ⟨_, _, h⟩; exact h p3
            · intro h
              exact ⟨by rintro h0; rw [h0] at h; simp at h, by rintro h0; rw [h0] at h; simp at h, fun _ => h⟩
          rw [hg] at s2
          rw [← s2]
          cases hs : segwitBytes H t u.lockScript u.amount t.vins[k] with
          | panic => exact absurd (s1.mp hs) hf
          | err => exact ⟨iff_of_false (by simp) (by simp), iff_of_false (by simp) (by simp)⟩
          | ok b => exact ⟨iff_of_false (by simp) (by simp), iff_of_true ⟨_, rfl⟩ ⟨_, rfl⟩⟩
        · rw [if_neg p3, Res.bind_ok]
          exact ⟨iff_of_false (by simp) (by simp), iff_of_false (by simp) (by rintro ⟨_, h⟩; exact p3 h)⟩

theorem hashLoop_panic (H : Hashes) {t : Tx} (ht : Read t) : ∀ (us : List TxUnlock) (k : Nat), k + us.length ≤ t.vins.length →
    ((hashLoop H t k us = .panic ↔ FirstBad (GoodUnlock (decide (t.vouts ≠ []))) CrashUnlock us) ∧
     ((∃ h, hashLoop H t k us = .ok h) ↔ ∀ u ∈ us, GoodUnlock (decide (t.vouts ≠ [])) u))
  | [], k, _ => by
    refine ⟨iff_of_false (by simp [hashLoop]) ?_, by simp [hashLoop]⟩
    rintro ⟨b, x, a, h, _⟩
    simp at h
  | u :: us, k, hk => by
    rw [List.length_cons] at hk
    obtain ⟨c1, c2⟩ := hashOne_cases H ht k (by omega) u
    obtain ⟨i1, i2⟩ := hashLoop_panic H ht us (k + 1) (by omega)
    rw [hashLoop, CombinePanic.firstBad_cons, List.forall_mem_cons, ← c1, ← c2, ← i1, ← i2]
    cases hashOne H t k u with
    | panic => simp
    | err => simp
    | ok h =>
      simp only [Res.bind_ok, reduceCtorEq, false_or, Res.ok.injEq, exists_eq', true_and]
      cases hashLoop H t (k + 1) us with
      | panic => simp
      | err => simp
      | ok hs => simp

theorem getHashes_panic (H : Hashes) {t : Tx} (ht : Read t) (us : List TxUnlock) :
    (getHashes H t us = .panic ↔ t.vins.length = us.length ∧ FirstBad (GoodUnlock (decide (t.vouts ≠ []))) CrashUnlock us) := by
  unfold getHashes
  by_cases h : t.vins = [] ∨ t.vins.length ≠ us.length
  · rw [if_pos h]
    refine iff_of_false (by simp) ?_
    rintro ⟨hl, b, x, a, rfl, _⟩
    rcases h with h | h
    · rw [h] at hl; simp at hl
    · exact h hl
  · rw [if_neg h, (hashLoop_panic H ht us 0 (by omega)).1]
    simp only [ne_eq, not_or, not_not] at h
    simp [h.2]

end BtcLike

/-- C144, hashing: `CreateRawTransactionHashForSig` crashes exactly on the texts on which reading crashes (C144_read), and on those of transactions with as
many inputs as unlock data are given, among which there are, behind some from which a hash can be computed, those that crash: a locking script that is
too short for the pattern it begins with, or a script hash with a redeem script that is empty or the byte zero. -/
theorem C144_hashes (H : Hashes) (text : Bytes) (us : List TxUnlock) :
    createHashes H text us = .panic ↔ ∃ b, HexText text b ∧
      (CrashTx b ∨ ∃ x, IsTx b x ∧ x.vins.length = us.length ∧ FirstBad (GoodUnlock (decide (x.vouts ≠ []))) CrashUnlock us) := by
  unfold createHashes
  simp only [← Eip.decode_iff]
  cases hd : Hex.decode text with
  | err => simp
  | panic => exact absurd hd (Hex.decode_ne_panic _)
  | ok b =>
    simp only [Res.bind_ok, Res.ok.injEq, exists_eq_left', ← C144_read, ← C114_language]
    cases ht : BtcLike.decodeTx b with
    | err => simp
    | panic => simp
    | ok x =>
      simp only [Res.bind_ok, reduceCtorEq, false_or, Res.ok.injEq, exists_eq_left']
      rw [DecPanic.bind_panic _ _ (by intro a; simp), getHashes_panic H (isTx_read ((C114_language _ _).mp ht))]

end Verif
