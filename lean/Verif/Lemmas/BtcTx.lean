import Verif.Model.Btc
import Verif.Spec.Btc
import Verif.Lemmas.Base
import Verif.Lemmas.Hex

/-! Lemmas about serialising and parsing transactions in `btcTransaction`. -/

namespace Verif.Btc
open Verif Verif.Spec

theorem takeN_append {n : Nat} (a b : Bytes) (h : a.length = n) : takeN n (a ++ b) = .ok (a, b) := by
  subst h
  simp [takeN]

theorem concatAll_ok {α : Type} {f : α → Res Bytes} {g : α → Bytes} :
    ∀ (l : List α), (∀ x ∈ l, f x = .ok (g x)) → concatAll f l = .ok (l.map g).flatten
  | [], _ => rfl
  | x :: l, h => by
    rw [concatAll, h x (by simp), Res.bind_ok, concatAll_ok l (fun y hy => h y (by simp [hy]))]
    simp

theorem concatAll_inv {α : Type} {f : α → Res Bytes} : ∀ (l : List α) {b : Bytes}, concatAll f l = .ok b →
    ∃ bs : List Bytes, bs.length = l.length ∧ b = bs.flatten ∧ ∀ p ∈ l.zip bs, f p.1 = .ok p.2
  | [], b, h => by
    simp only [concatAll, Res.ok.injEq] at h
    exact ⟨[], rfl, by simp [← h], by simp⟩
  | x :: l, b, h => by
    rw [concatAll, Res.bind_eq_ok] at h
    obtain ⟨y, hy, h⟩ := h
    rw [Res.bind_eq_ok] at h
    obtain ⟨ys, hys, h⟩ := h
    simp only [Res.ok.injEq] at h
    obtain ⟨bs, h1, h2, h3⟩ := concatAll_inv l hys
    refine ⟨y :: bs, by simp [h1], by simp [← h, h2], ?_⟩
    intro p hp
    simp only [List.zip_cons_cons, List.mem_cons] at hp
    rcases hp with rfl | hp
    · exact hy
    · exact h3 p hp

/-! ### Inputs and outputs that survive serialisation -/

/-- An unlocking witness for a multisig: a zero byte, signatures (pushes starting with 0x30), the redeem script behind its length. -/
def WitnessMulti (m : Bytes) : Prop :=
  ∃ (sigs : List Bytes) (redeem : Bytes), m = 0x00 :: ((sigs.map push).flatten ++ push redeem) ∧
    (∀ s ∈ sigs, ∃ t, s = 0x30 :: t ∧ s.length < 256) ∧ redeem.length < 256 ∧
    (∃ x t, redeem = x :: t ∧ x ≠ 0x30) ∧ redeem.getLastD 0 = 0xae

/-- An input as the package itself builds and signs it (`witness`: inside a transaction with witness data). Not covered: P2SH-P2WPKH
inputs and multisig unlocking scripts below 253 bytes. -/
structure GoodIn (segwitOn witness : Bool) (i : TxIn) : Prop where
  txid : i.txid.length = 32
  vout : i.vout.length = 4
  sequence : i.sequence.length = 4
  script : (i.inType = .empty ∧ witness = false ∧ i.scriptPub = [] ∧ i.scriptSig = [] ∧ i.scriptMulti = []) ∨
    (i.inType = .p2pkh ∧ i.scriptPub = [] ∧ i.scriptMulti = [] ∧ 1 ≤ i.scriptSig.length ∧ i.scriptSig.length ≤ 0x6c ∧
      i.scriptSig.length ≠ 0x17 ∧ i.scriptSig.length ≠ 0x23) ∨
    (i.inType = .bech32 ∧ witness = true ∧ i.scriptPub = [] ∧ i.scriptMulti = [] ∧
      ∃ n s, i.scriptSig = n :: s ∧ s.length = n.toNat + 34) ∨
    (i.inType = .multi ∧ witness = false ∧ segwitOn = false ∧ i.scriptPub = [] ∧ i.scriptSig = [] ∧
      ∃ s : Bytes, i.scriptMulti = 0xfd :: (leBytes 2 s.length ++ s) ∧ s.length < 65536) ∨
    (i.inType = .multi ∧ witness = true ∧ segwitOn = true ∧ i.scriptSig = [] ∧ WitnessMulti i.scriptMulti ∧
      ∃ s : Bytes, i.scriptPub = 0x23 :: s ∧ s.length = 0x23)

/-- The input without its witness data. -/
def strip (i : TxIn) : TxIn :=
  match i.inType with
  | .bech32 => { i with scriptSig := [] }
  | .multi => if i.scriptPub = [] then i else { i with scriptMulti := [] }
  | _ => i

theorem u8_ofNat_ne {n : Nat} {c : UInt8} (h : n < 256) (hne : n ≠ c.toNat) : UInt8.ofNat n ≠ c := by
  intro hc
  apply hne
  rw [← hc]; simp; omega

theorem u8_ofNat_ne0 {n : Nat} (h : n < 256) (h1 : 1 ≤ n) : UInt8.ofNat n ≠ 0 :=
  u8_ofNat_ne h (by show n ≠ 0; omega)

theorem u8_ofNat_le {n : Nat} {c : UInt8} (h : n ≤ c.toNat) : UInt8.ofNat n ≤ c := by
  have := c.toNat_lt
  show (UInt8.ofNat n).toNat ≤ c.toNat
  simp; omega

/-- Reading back what was written for the unlocking script. -/
theorem decodeUnlock_good {seg w : Bool} {i : TxIn} (g : GoodIn seg w i) (spare : Nat) (rest : Bytes) :
    ∃ x b, unlockBytes seg i = x :: b ∧ decodeUnlock w spare x (b ++ rest) =
      .ok ({ inType := i.inType, scriptPub := (strip i).scriptPub, scriptSig := (strip i).scriptSig,
             scriptMulti := (strip i).scriptMulti }, rest) := by
  obtain ⟨-, -, -, g⟩ := g
  rcases g with ⟨h1, h2, h3, h4, h5⟩ | ⟨h1, h2, h3, h4, h5, h6, h7⟩ | ⟨h1, h2, h3, h4, n, s, h5, h6⟩ |
    ⟨h1, h2, h3, h4, h5, s, h6, h7⟩ | ⟨h1, h2, h3, h4, h5, s, h6, h7⟩
  · refine ⟨0, [], by simp [unlockBytes, h1, h3], ?_⟩
    simp [decodeUnlock, h2, strip, h1, h3, h4, h5]
  · have n0 := u8_ofNat_ne0 (n := i.scriptSig.length) (by omega) h4
    have n1 := u8_ofNat_ne (c := 0x17) (n := i.scriptSig.length) (by omega) (by simpa using h6)
    have n2 := u8_ofNat_ne (c := 0x23) (n := i.scriptSig.length) (by omega) (by simpa using h7)
    have n3 := u8_ofNat_le (c := 0x6c) (n := i.scriptSig.length) (by simpa using h5)
    refine ⟨UInt8.ofNat i.scriptSig.length, i.scriptSig, by simp [unlockBytes, h1], ?_⟩
    unfold decodeUnlock
    rw [if_neg n0, if_neg n1, if_neg n2, if_pos n3, takeN_append _ _ (by simp; omega)]
    simp [strip, h1, h2, h3]
  · refine ⟨0, [], by simp [unlockBytes, h1], ?_⟩
    simp [decodeUnlock, h2, strip, h1, h3, h4]
  · refine ⟨0xfd, leBytes 2 s.length ++ s, by simp [unlockBytes, h1, h3, h6], ?_⟩
    have e1 : (leBytes 2 s.length ++ s ++ rest).take 2 = leBytes 2 s.length := by
      rw [List.append_assoc, List.take_left' (by simp)]
    have e2 : leNat (leBytes 2 s.length) = s.length := leNat_leBytes_of_lt (by omega)
    unfold decodeUnlock
    rw [if_neg (by decide), if_neg (by decide), if_neg (by decide), if_neg (by decide), h2]
    simp only [Bool.false_eq_true, if_false, if_true, e1, e2]
    rw [if_neg (by simp), if_neg (by simp; omega), if_neg (by simp; omega)]
    rw [List.take_left' (by simp; omega), List.drop_left' (by simp; omega)]
    simp [strip, h1, h4, h5, h6]
  · refine ⟨0x23, s, by simp [unlockBytes, h1, h3, h6], ?_⟩
    unfold decodeUnlock
    rw [if_neg (by decide), if_neg (by decide), if_pos rfl, h2, takeN_append _ _ h7]
    simp [strip, h1, h4, h6]

theorem encodeIn_good {seg w : Bool} {i : TxIn} (g : GoodIn seg w i) :
    encodeIn seg i = .ok (i.txid ++ i.vout ++ unlockBytes seg i ++ i.sequence) := by
  unfold encodeIn
  rw [if_neg (by simp [g.txid, g.vout, g.sequence])]

theorem decodeIn_good {seg w : Bool} {i : TxIn} (g : GoodIn seg w i) (spare : Nat) (rest : Bytes) :
    decodeIn w spare (i.txid ++ i.vout ++ unlockBytes seg i ++ i.sequence ++ rest) = .ok (strip i, rest) := by
  obtain ⟨x, b, h1, h2⟩ := decodeUnlock_good g spare (i.sequence ++ rest)
  unfold decodeIn
  rw [h1]
  simp only [List.append_assoc, List.cons_append]
  rw [takeN_append _ _ g.txid]
  simp only [Res.bind_ok]
  rw [takeN_append _ _ g.vout]
  simp only [Res.bind_ok, take1, h2, takeSequence]
  rw [if_neg (by simp [g.sequence]), List.take_left' g.sequence, List.drop_left' g.sequence]
  simp only [Res.bind_ok]
  congr 2
  have : (strip i).inType = i.inType ∧ (strip i).txid = i.txid ∧ (strip i).vout = i.vout ∧
      (strip i).sequence = i.sequence := by
    unfold strip
    split
    · simp
    · split <;> simp
    · simp
  rw [← this.1, ← this.2.1, ← this.2.2.1, ← this.2.2.2]

theorem decodeIns_good {seg w : Bool} (spare : Nat) : ∀ (l : List TxIn), (∀ i ∈ l, GoodIn seg w i) → ∀ rest,
    decodeIns w spare l.length
      ((l.map (fun i => i.txid ++ i.vout ++ unlockBytes seg i ++ i.sequence)).flatten ++ rest) = .ok (l.map strip, rest)
  | [], _, rest => rfl
  | i :: l, h, rest => by
    rw [List.length_cons, decodeIns, List.map_cons, List.flatten_cons, List.append_assoc,
      decodeIn_good (h i (by simp)), Res.bind_ok]
    simp only
    rw [decodeIns_good spare l (fun j hj => h j (by simp [hj])), Res.bind_ok]
    rfl

/-- An output that survives: amount of eight bytes, script of 1 to 255 bytes. -/
structure GoodOut (o : TxOut) : Prop where
  amount : o.amount.length = 8
  pos : 1 ≤ o.lockScript.length
  le : o.lockScript.length ≤ 255

theorem encodeOut_good {o : TxOut} (g : GoodOut o) :
    encodeOut o = .ok (o.amount ++ [UInt8.ofNat o.lockScript.length] ++ o.lockScript) := by
  unfold encodeOut
  rw [if_neg]
  rintro (h | h)
  · exact h g.amount
  · have := g.pos
    simp [h] at this

theorem decodeOut_good {o : TxOut} (g : GoodOut o) (rest : Bytes) :
    decodeOut (o.amount ++ [UInt8.ofNat o.lockScript.length] ++ o.lockScript ++ rest) = .ok (o, rest) := by
  have h1 := g.pos
  have h2 := g.le
  unfold decodeOut
  simp only [List.append_assoc]
  rw [takeN_append _ _ g.amount]
  simp only [Res.bind_ok, take1, List.cons_append, List.nil_append]
  rw [if_neg (u8_ofNat_ne0 (by omega) (by omega)), takeN_append _ _ (by simp; omega)]
  rfl

theorem decodeOuts_good : ∀ (l : List TxOut), (∀ o ∈ l, GoodOut o) → ∀ rest,
    decodeOuts l.length ((l.map (fun o => o.amount ++ [UInt8.ofNat o.lockScript.length] ++ o.lockScript)).flatten ++ rest) =
      .ok (l, rest)
  | [], _, rest => rfl
  | o :: l, h, rest => by
    rw [List.length_cons, decodeOuts, List.map_cons, List.flatten_cons, List.append_assoc,
      decodeOut_good (h o (by simp)), Res.bind_ok]
    simp only
    rw [decodeOuts_good l (fun j hj => h j (by simp [hj])), Res.bind_ok]

/-! ### Witness data -/

/-- The witness written for an input. -/
def witnessBytes (i : TxIn) : Bytes :=
  match i.inType with
  | .empty => []
  | .p2pkh => [0x00]
  | .p2wpkh | .bech32 => 0x02 :: i.scriptSig
  | .multi => 0x04 :: i.scriptMulti

theorem encodeWitness_good {seg : Bool} {i : TxIn} (g : GoodIn seg true i) : encodeWitness i = .ok (witnessBytes i) := by
  unfold encodeWitness witnessBytes
  rcases g.script with ⟨h1, h2, _⟩ | ⟨h1, _⟩ | ⟨h1, _⟩ | ⟨h1, _⟩ | ⟨h1, _⟩
  · simp at h2
  all_goals simp [h1]

theorem copySigs_good (redeem rest : Bytes) (x : UInt8) (t : Bytes) (hx : redeem = x :: t)
    (hne : x ≠ 0x30) : ∀ (sigs : List Bytes) (f : Nat) (acc : Bytes), sigs.length < f →
    (∀ s ∈ sigs, ∃ t, s = 0x30 :: t ∧ s.length < 256) →
    copySigs f acc ((sigs.map push).flatten ++ push redeem ++ rest) = .ok (acc ++ (sigs.map push).flatten, push redeem ++ rest)
  | [], 0, _, h, _ => by simp at h
  | [], f + 1, acc, _, _ => by
    simp [copySigs, push, hx, hne]
  | s :: sigs, 0, _, h, _ => by simp at h
  | s :: sigs, f + 1, acc, hf, hs => by
    obtain ⟨t', ht, hl⟩ := hs s (by simp)
    have ih := copySigs_good redeem rest x t hx hne sigs f (acc ++ push s) (by simpa using hf)
      (fun y hy => hs y (by simp [hy]))
    have hn : (UInt8.ofNat s.length).toNat = s.length := by simp; omega
    have e : ((s :: sigs).map push).flatten ++ push redeem ++ rest =
        UInt8.ofNat s.length :: 0x30 :: (t' ++ ((sigs.map push).flatten ++ push redeem ++ rest)) := by
      simp only [List.map_cons, List.flatten_cons]
      conv_lhs => enter [1, 1, 1]; rw [push, ht]
      rw [ht]
      simp
    have e2 : (0x30 : UInt8) :: (t' ++ ((sigs.map push).flatten ++ push redeem ++ rest)) =
        s ++ ((sigs.map push).flatten ++ push redeem ++ rest) := by rw [ht]; simp
    rw [e, copySigs]
    rw [if_neg (by simp), if_neg (by rw [e2, hn]; simp), e2, hn, List.take_left, List.drop_left]
    rw [show acc ++ UInt8.ofNat s.length :: s = acc ++ push s from rfl, ih]
    simp

theorem decodeWitnessMulti_good {m : Bytes} (h : WitnessMulti m) (rest : Bytes) :
    decodeWitnessMulti (m ++ rest) = .ok (m, rest) := by
  obtain ⟨sigs, redeem, rfl, hs, hr, ⟨x, t, hx, hne⟩, hlast⟩ := h
  have hlen : sigs.length ≤ ((sigs.map push).flatten).length := by
    clear hs hr hlast
    induction sigs with
    | nil => simp
    | cons s l ih => simp [push] at ih ⊢; omega
  unfold decodeWitnessMulti
  simp only [List.cons_append]
  rw [if_neg (by simp), copySigs_good redeem rest x t hx hne sigs _ _ (by simp only [List.length_append]; omega) hs]
  have hn : (UInt8.ofNat redeem.length).toNat = redeem.length := by simp; omega
  simp only [push, List.cons_append, hn, List.take_left, List.drop_left]
  rw [if_neg (by simp), if_neg (by rw [hlast]; simp)]
  simp

theorem decodeWitness_good {seg : Bool} {i : TxIn} (g : GoodIn seg true i) (rest : Bytes) :
    decodeWitness seg (strip i) (witnessBytes i ++ rest) = .ok (i, rest) := by
  rcases g.script with ⟨h1, h2, _⟩ | ⟨h1, h2, h3, h4, h5⟩ | ⟨h1, h2, h3, h4, n, s, h5, h6⟩ | ⟨h1, h2, _⟩ |
    ⟨h1, h2, h3, h4, h5, s, h6, h7⟩
  · simp at h2
  · simp [decodeWitness, strip, witnessBytes, h1, take1]
  · have e : strip i = { i with scriptSig := [] } := by simp [strip, h1]
    rw [e]
    unfold decodeWitness witnessBytes
    simp only [h1, List.cons_append, take1, Res.bind_ok, h5]
    rw [if_neg (by simp), ← List.cons_append, takeN_append _ _ (by simp [h6])]
    simp only [Res.bind_ok]
    rw [← h5, ← h1]
  · simp at h2
  · have e : strip i = { i with scriptMulti := [] } := by simp [strip, h1, h6]
    rw [e]
    unfold decodeWitness witnessBytes
    simp only [h1, List.cons_append, take1, Res.bind_ok, h3]
    rw [if_neg (by simp), if_neg (by simp), decodeWitnessMulti_good h5]
    simp only [Res.bind_ok]
    rw [← h1]

theorem decodeWitnesses_good {seg : Bool} : ∀ (l : List TxIn), (∀ i ∈ l, GoodIn seg true i) → ∀ rest,
    decodeWitnesses seg (l.map strip) ((l.map witnessBytes).flatten ++ rest) = .ok (l, rest)
  | [], _, rest => rfl
  | i :: l, h, rest => by
    rw [List.map_cons, List.map_cons, List.flatten_cons, List.append_assoc, decodeWitnesses,
      decodeWitness_good (h i (by simp)), Res.bind_ok]
    simp only
    rw [decodeWitnesses_good l (fun j hj => h j (by simp [hj])), Res.bind_ok]

theorem strip_good {seg : Bool} {i : TxIn} (g : GoodIn seg false i) : strip i = i := by
  rcases g.script with ⟨h1, _⟩ | ⟨h1, _⟩ | ⟨h1, h2, _⟩ | ⟨h1, _, _, h2, _⟩ | ⟨h1, h2, _⟩
  · simp [strip, h1]
  · simp [strip, h1]
  · simp at h2
  · simp [strip, h1, h2]
  · simp at h2

/-- The transactions that survive serialisation. -/
structure GoodTx (segwitOn : Bool) (t : Tx) : Prop where
  version : t.version = leBytes 4 2
  lockTime : t.lockTime.length = 4
  insPos : 1 ≤ t.vins.length
  insLe : t.vins.length ≤ 255
  outsPos : 1 ≤ t.vouts.length
  outsLe : t.vouts.length ≤ 255
  ins : ∀ i ∈ t.vins, GoodIn segwitOn t.witness i
  outs : ∀ o ∈ t.vouts, GoodOut o

theorem encodeTx_good {seg : Bool} {t : Tx} (g : GoodTx seg t) :
    encodeTx seg t = .ok (t.version ++ (if t.witness then [0x00, 0x01] else []) ++ [UInt8.ofNat t.vins.length] ++
      (t.vins.map (fun i => i.txid ++ i.vout ++ unlockBytes seg i ++ i.sequence)).flatten ++
      [UInt8.ofNat t.vouts.length] ++
      (t.vouts.map (fun o => o.amount ++ [UInt8.ofNat o.lockScript.length] ++ o.lockScript)).flatten ++
      (if t.witness then (t.vins.map witnessBytes).flatten else []) ++ t.lockTime) := by
  have hv : t.version.length = 4 := by rw [g.version]; rfl
  have h1 := g.insPos
  have h2 := g.outsPos
  unfold encodeTx
  rw [if_neg, concatAll_ok _ (fun i hi => encodeIn_good (g.ins i hi)), Res.bind_ok,
    concatAll_ok _ (fun o ho => encodeOut_good (g.outs o ho)), Res.bind_ok]
  · by_cases hw : t.witness = true
    · rw [if_pos hw, concatAll_ok _ (fun i hi => encodeWitness_good (by have := g.ins i hi; rwa [hw] at this))]
      simp [hw]
    · simp [hw]
  · rintro (h | h | h | h)
    · simp [h] at h1
    · simp [h] at h2
    · exact h hv
    · exact h g.lockTime

theorem decodeTx_good {seg : Bool} {t : Tx} (g : GoodTx seg t) (spare : Nat) :
    ∃ b, encodeTx seg t = .ok b ∧ decodeTx spare seg b = .ok t := by
  refine ⟨_, encodeTx_good g, ?_⟩
  have hv : t.version.length = 4 := by rw [g.version]; rfl
  have h1 := g.insPos
  have h1' := g.insLe
  have h2 := g.outsPos
  have h2' := g.outsLe
  have nIn : (UInt8.ofNat t.vins.length).toNat = t.vins.length := by simp; omega
  have nOut : (UInt8.ofNat t.vouts.length).toNat = t.vouts.length := by simp; omega
  have zIn : UInt8.ofNat t.vins.length ≠ 0 := u8_ofNat_ne0 (by omega) (by omega)
  have zOut : UInt8.ofNat t.vouts.length ≠ 0 := u8_ofNat_ne0 (by omega) (by omega)
  unfold decodeTx
  simp only [List.append_assoc]
  rw [takeN_append _ _ hv]
  simp only [Res.bind_ok]
  rw [if_neg (by rw [g.version]; decide)]
  have tail : decodeBody spare seg t.witness t.version ([UInt8.ofNat t.vins.length] ++
        ((t.vins.map (fun i => i.txid ++ (i.vout ++ (unlockBytes seg i ++ i.sequence)))).flatten ++
        ([UInt8.ofNat t.vouts.length] ++
        ((t.vouts.map (fun o => o.amount ++ ([UInt8.ofNat o.lockScript.length] ++ o.lockScript))).flatten ++
        ((if t.witness then (t.vins.map witnessBytes).flatten else []) ++ t.lockTime))))) = Res.ok t := by
    unfold decodeBody
    simp only [List.cons_append, List.nil_append, take1, Res.bind_ok]
    rw [if_neg zIn, nIn]
    have d1 := decodeIns_good (seg := seg) spare t.vins g.ins
      (UInt8.ofNat t.vouts.length :: ((t.vouts.map (fun o => o.amount ++ UInt8.ofNat o.lockScript.length :: o.lockScript)).flatten ++
        ((if t.witness then (t.vins.map witnessBytes).flatten else []) ++ t.lockTime)))
    simp only [List.append_assoc] at d1
    rw [d1]
    simp only [Res.bind_ok]
    rw [if_neg zOut, nOut]
    have d2 := decodeOuts_good t.vouts g.outs ((if t.witness then (t.vins.map witnessBytes).flatten else []) ++ t.lockTime)
    simp only [List.append_assoc, List.cons_append, List.nil_append] at d2
    rw [d2]
    simp only [Res.bind_ok]
    by_cases hw : t.witness = true
    · rw [hw]
      simp only [if_true]
      rw [decodeWitnesses_good t.vins (fun i hi => by have := g.ins i hi; rwa [hw] at this)]
      simp only [Res.bind_ok]
      rw [← List.append_nil t.lockTime, takeN_append _ _ g.lockTime]
      simp [← hw]
    · have hw : t.witness = false := by simpa using hw
      rw [hw]
      simp only [Bool.false_eq_true, if_false, List.nil_append]
      rw [← List.append_nil t.lockTime, takeN_append _ _ g.lockTime]
      have : t.vins.map strip = t.vins := by
        conv_rhs => rw [← List.map_id t.vins]
        apply List.map_congr_left
        intro i hi
        have := g.ins i hi
        rw [hw] at this
        exact strip_good this
      simp [this, ← hw]
  by_cases hw : t.witness = true
  · rw [if_neg (by simp [hw])]
    rw [hw] at tail
    simp only [hw, if_true, List.cons_append, List.nil_append] at tail ⊢
    rw [if_neg (by simp)]
    exact tail
  · have hw : t.witness = false := by simpa using hw
    rw [if_neg (by have := g.lockTime; simp [hw]; omega)]
    rw [hw] at tail
    simp only [hw, Bool.false_eq_true, if_false, List.cons_append, List.nil_append] at tail ⊢
    split
    · rename_i h; simp only [List.cons.injEq] at h; exact absurd h.1 zIn
    · exact tail

end Verif.Btc

namespace Verif.Btc
open Verif Verif.Spec

/-! ### Relation to the standard serialisation -/

/-- The transaction a structure with unsigned inputs stands for. -/
def toRaw (t : Tx) : RawTx :=
  { version := leNat t.version
    ins := t.vins.map (fun i => ⟨i.txid, leNat i.vout, i.scriptPub, leNat i.sequence⟩)
    outs := t.vouts.map (fun o => ⟨leNat o.amount, o.lockScript⟩)
    lockTime := leNat t.lockTime }

theorem compactSize_small {n : Nat} (h : n < 253) : compactSize n = [UInt8.ofNat n] := by
  unfold compactSize; rw [if_pos h]

theorem compactSize_length (n : Nat) : 1 ≤ (compactSize n).length ∧ (253 ≤ n → 3 ≤ (compactSize n).length) := by
  unfold compactSize
  split
  · exact ⟨by simp, by omega⟩
  · split
    · simp
    · split <;> simp

theorem leBytes_leNat' {k : Nat} {b : Bytes} (h : b.length = k) : leBytes k (leNat b) = b := by
  subst h; exact leBytes_leNat b

/-- Unsigned transactions with small counts and scripts are serialised in the standard format. -/
theorem encodeTx_standard {seg : Bool} {t : Tx} (hv : t.version.length = 4) (hl : t.lockTime.length = 4)
    (hw : t.witness = false) (i1 : t.vins ≠ []) (i2 : t.vins.length < 253) (o1 : t.vouts ≠ []) (o2 : t.vouts.length < 253)
    (hi : ∀ i ∈ t.vins, i.inType = .empty ∧ i.txid.length = 32 ∧ i.vout.length = 4 ∧ i.sequence.length = 4 ∧
      i.scriptPub.length < 253)
    (ho : ∀ o ∈ t.vouts, o.amount.length = 8 ∧ o.lockScript ≠ [] ∧ o.lockScript.length < 253) :
    encodeTx seg t = .ok (toRaw t).ser := by
  unfold encodeTx
  rw [if_neg (by simp [i1, o1, hv, hl])]
  rw [concatAll_ok (g := fun i => RawIn.ser ⟨i.txid, leNat i.vout, i.scriptPub, leNat i.sequence⟩), Res.bind_ok,
    concatAll_ok (g := fun o => RawOut.ser ⟨leNat o.amount, o.lockScript⟩), Res.bind_ok]
  · rw [hw]
    simp only [Bool.false_eq_true, if_false, List.append_nil, Res.bind_ok]
    simp only [RawTx.ser, toRaw, List.length_map, compactSize_small i2, compactSize_small o2,
      leBytes_leNat' hv, leBytes_leNat' hl, List.map_map]
    rfl
  · intro o hm
    obtain ⟨k1, k2, k3⟩ := ho o hm
    unfold encodeOut
    rw [if_neg (by simp [k1, k2])]
    simp only [RawOut.ser, varBytes, leBytes_leNat' k1, compactSize_small k3, List.append_assoc]
  · intro i hm
    obtain ⟨k1, k2, k3, k4, k5⟩ := hi i hm
    unfold encodeIn
    rw [if_neg (by simp [k2, k3, k4])]
    simp only [RawIn.ser, RawIn.outpoint, varBytes, leBytes_leNat' k3, leBytes_leNat' k4, compactSize_small k5, unlockBytes, k1,
      List.append_assoc, List.cons_append, List.nil_append]

theorem flatten_length_map {α : Type} (f : α → Bytes) (g : α → Nat) (l : List α) (h : ∀ x ∈ l, (f x).length = g x) :
    ((l.map f).flatten).length = (l.map g).sum := by
  induction l with
  | nil => rfl
  | cons x l ih =>
    simp only [List.map_cons, List.flatten_cons, List.length_append, List.sum_cons]
    rw [h x (by simp), ih (fun y hy => h y (by simp [hy]))]

/-! ### Crash freedom -/

theorem takeN_ne_panic (n : Nat) (b : Bytes) : takeN n b ≠ .panic := by
  unfold takeN; split <;> simp

theorem take1_ne_panic (b : Bytes) : take1 b ≠ .panic := by
  unfold take1; split <;> simp

theorem bind_ne_panic {α β : Type} {x : Res α} {f : α → Res β} (h : x ≠ .panic) (h2 : ∀ a, x = .ok a → f a ≠ .panic) :
    (x >>= f) ≠ .panic := by
  intro hc
  rw [Res.bind_eq_panic] at hc
  rcases hc with hc | ⟨a, h3, h4⟩
  · exact h hc
  · exact h2 a h3 h4

theorem decodeUnlock_ne_panic {w : Bool} {spare : Nat} (hs : 6 ≤ spare) (x : UInt8) (b : Bytes) :
    decodeUnlock w spare x b ≠ .panic := by
  unfold decodeUnlock
  split
  · simp
  split
  · split
    · simp
    · exact bind_ne_panic (takeN_ne_panic _ _) (by simp)
  split
  · split
    · simp
    · exact bind_ne_panic (takeN_ne_panic _ _) (by simp)
  split
  · exact bind_ne_panic (takeN_ne_panic _ _) (by simp)
  split
  · simp
  split
  · split
    · simp
    · simp only
      split
      · simp
      · split
        · rw [if_neg (by omega)]; simp
        · simp
  split
  · simp
  · exact bind_ne_panic (takeN_ne_panic _ _) (by simp)

theorem takeSequence_ne_panic {spare : Nat} (hs : 6 ≤ spare) (b : Bytes) : takeSequence spare b ≠ .panic := by
  unfold takeSequence
  split
  · rw [if_neg (by omega)]; simp
  · simp

theorem decodeIn_ne_panic {w : Bool} {spare : Nat} (hs : 6 ≤ spare) (b : Bytes) : decodeIn w spare b ≠ .panic := by
  unfold decodeIn
  refine bind_ne_panic (takeN_ne_panic _ _) (fun _ _ => ?_)
  refine bind_ne_panic (takeN_ne_panic _ _) (fun _ _ => ?_)
  refine bind_ne_panic (take1_ne_panic _) (fun _ _ => ?_)
  refine bind_ne_panic (decodeUnlock_ne_panic hs _ _) (fun _ _ => ?_)
  exact bind_ne_panic (takeSequence_ne_panic hs _) (by simp)

theorem decodeIns_ne_panic {w : Bool} {spare : Nat} (hs : 6 ≤ spare) : ∀ (n : Nat) (b : Bytes),
    decodeIns w spare n b ≠ .panic
  | 0, b => by simp [decodeIns]
  | n + 1, b => by
    rw [decodeIns]
    refine bind_ne_panic (decodeIn_ne_panic hs _) (fun _ _ => ?_)
    exact bind_ne_panic (decodeIns_ne_panic hs n _) (by simp)

theorem decodeOut_ne_panic (b : Bytes) : decodeOut b ≠ .panic := by
  unfold decodeOut
  refine bind_ne_panic (takeN_ne_panic _ _) (fun _ _ => ?_)
  refine bind_ne_panic (take1_ne_panic _) (fun _ _ => ?_)
  simp only
  split
  · simp
  · exact bind_ne_panic (takeN_ne_panic _ _) (by simp)

theorem decodeOuts_ne_panic : ∀ (n : Nat) (b : Bytes), decodeOuts n b ≠ .panic
  | 0, b => by simp [decodeOuts]
  | n + 1, b => by
    rw [decodeOuts]
    refine bind_ne_panic (decodeOut_ne_panic _) (fun _ _ => ?_)
    exact bind_ne_panic (decodeOuts_ne_panic n _) (by simp)

theorem decodeWitness_ne_panic {seg : Bool} {i : TxIn} (h : seg = false ∨ i.inType ≠ .multi) (b : Bytes) :
    decodeWitness seg i b ≠ .panic := by
  unfold decodeWitness
  refine bind_ne_panic (take1_ne_panic _) (fun _ _ => ?_)
  simp only
  split
  · simp
  · split <;> simp
  · split
    · simp
    · split
      · simp
      · exact bind_ne_panic (takeN_ne_panic _ _) (by simp)
  · split
    · simp
    · split
      · simp
      · exact bind_ne_panic (takeN_ne_panic _ _) (by simp)
  · rename_i hm
    rcases h with h | h
    · rw [h]; simp
    · exact absurd hm h

theorem decodeWitnesses_ne_panic {seg : Bool} : ∀ (is : List TxIn), (seg = false ∨ ∀ i ∈ is, i.inType ≠ .multi) →
    ∀ (b : Bytes), decodeWitnesses seg is b ≠ .panic
  | [], _, b => by simp [decodeWitnesses]
  | i :: is, h, b => by
    rw [decodeWitnesses]
    refine bind_ne_panic (decodeWitness_ne_panic ?_ _) (fun _ _ => ?_)
    · rcases h with h | h
      · exact Or.inl h
      · exact Or.inr (h i (by simp))
    · refine bind_ne_panic (decodeWitnesses_ne_panic is ?_ _) (by simp)
      rcases h with h | h
      · exact Or.inl h
      · exact Or.inr (fun j hj => h j (by simp [hj]))

theorem decodeBody_ne_panic {seg w : Bool} {spare : Nat} (hs : 6 ≤ spare) (h : seg = false ∨ w = false) (v b : Bytes) :
    decodeBody spare seg w v b ≠ .panic := by
  unfold decodeBody
  refine bind_ne_panic (take1_ne_panic _) (fun _ _ => ?_)
  simp only
  split
  · simp
  refine bind_ne_panic (decodeIns_ne_panic hs _ _) (fun _ _ => ?_)
  refine bind_ne_panic (take1_ne_panic _) (fun _ _ => ?_)
  split
  · simp
  refine bind_ne_panic (decodeOuts_ne_panic _ _) (fun _ _ => ?_)
  split
  · rename_i hw
    refine bind_ne_panic (decodeWitnesses_ne_panic _ ?_ _) (fun _ _ => ?_)
    · rcases h with h | h
      · exact Or.inl h
      · rw [h] at hw; simp at hw
    · refine bind_ne_panic (takeN_ne_panic _ _) (fun _ _ => ?_)
      split <;> simp
  · simp only [Res.bind_ok]
    refine bind_ne_panic (takeN_ne_panic _ _) (fun _ _ => ?_)
    split <;> simp

theorem decodeBody_witness {spare : Nat} {seg w : Bool} {v r : Bytes} {t : Tx}
    (h : decodeBody spare seg w v r = .ok t) : t.witness = w := by
  unfold decodeBody at h
  obtain ⟨⟨n, b1⟩, _, h⟩ := Res.bind_eq_ok.mp h
  simp only at h
  by_cases hn : n = 0
  · rw [if_pos hn] at h; simp at h
  rw [if_neg hn] at h
  obtain ⟨⟨ins, b2⟩, _, h⟩ := Res.bind_eq_ok.mp h
  obtain ⟨⟨m, b3⟩, _, h⟩ := Res.bind_eq_ok.mp h
  simp only at h
  by_cases hm : m = 0
  · rw [if_pos hm] at h; simp at h
  rw [if_neg hm] at h
  obtain ⟨⟨outs, b4⟩, _, h⟩ := Res.bind_eq_ok.mp h
  simp only at h
  have key : ∀ (ins' : List TxIn) (b5 : Bytes), (do
      let x ← takeN 4 b5
      if x.2 ≠ [] then Res.err
      else Res.ok ({ version := v, vins := ins', vouts := outs, lockTime := x.1, witness := w } : Tx)) = .ok t →
      t.witness = w := by
    intro ins' b5 h
    obtain ⟨⟨lt, b6⟩, _, h⟩ := Res.bind_eq_ok.mp h
    simp only at h
    by_cases hb : b6 = []
    · rw [if_neg (by simp [hb])] at h
      simp only [Res.ok.injEq] at h
      rw [← h]
    · rw [if_pos hb] at h; simp at h
  by_cases hw : w = true
  · rw [if_pos hw] at h
    obtain ⟨⟨ins', b5⟩, _, h⟩ := Res.bind_eq_ok.mp h
    exact key _ _ h
  · rw [if_neg hw, Res.bind_ok] at h
    exact key _ _ h

end Verif.Btc
