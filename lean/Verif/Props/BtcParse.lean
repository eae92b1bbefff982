import Verif.Lemmas.BtcTx
import Verif.Lemmas.BtcVariants
import Verif.Props.BtcTx

/-! C139: which byte strings the decoder of the Bitcoin packages accepts. -/

namespace Verif
open Verif.Btc Verif.Spec Verif.BtcVariants

namespace BtcParse

theorem takeN_inv {n : Nat} {b x r : Bytes} (h : takeN n b = .ok (x, r)) : b = x ++ r ∧ x.length = n := by
  unfold takeN at h
  split_ifs at h with hl
  cases h
  exact ⟨(List.take_append_drop n b).symm, by rw [List.length_take]; omega⟩

theorem take1_inv {b r : Bytes} {x : UInt8} (h : take1 b = .ok (x, r)) : b = x :: r := by
  cases b with
  | nil => cases h
  | cons y b => cases h; rfl

theorem takeSequence_inv {spare : Nat} {b x r : Bytes} (h : takeSequence spare b = .ok (x, r)) : b = x ++ r ∧ x.length = 4 := by
  unfold takeSequence at h
  split_ifs at h with hl
  cases h
  exact ⟨(List.take_append_drop 4 b).symm, by rw [List.length_take]; omega⟩

/-- The unlocking part of an input as it was read (for multisig inputs only inside a transaction with witness data). -/
def unlockRead (i : TxIn) : Bytes :=
  match i.inType with
  | .empty => [0x00]
  | .bech32 => [0x00]
  | .p2wpkh => 0x17 :: i.scriptPub
  | .p2pkh => UInt8.ofNat i.scriptSig.length :: i.scriptSig
  | .multi => i.scriptPub

/-- The witness of an input as it was read. -/
def witnessRead (i : TxIn) : Bytes :=
  match i.inType with
  | .empty => []
  | .p2pkh => [0x00]
  | .p2wpkh | .bech32 => 0x02 :: i.scriptSig
  | .multi => 0x04 :: i.scriptMulti

def inRead (i : TxIn) : Bytes := i.txid ++ i.vout ++ unlockRead i ++ i.sequence

def outRead (o : TxOut) : Bytes := o.amount ++ UInt8.ofNat o.lockScript.length :: o.lockScript

/-- The shape of a decoded input. -/
structure Shape (w : Bool) (i : TxIn) : Prop where
  txid : i.txid.length = 32
  vout : i.vout.length = 4
  sequence : i.sequence.length = 4
  empty : i.inType = .empty → w = false ∧ i.scriptPub = [] ∧ i.scriptSig = [] ∧ i.scriptMulti = []
  witness : i.inType = .bech32 ∨ i.inType = .p2wpkh → w = true
  nested : i.inType = .p2wpkh → i.scriptPub.length = 0x17

theorem decodeUnlock_inv {w : Bool} {spare : Nat} {x : UInt8} {b r : Bytes} {u : Unlock} {i : TxIn} (h : decodeUnlock w spare x b = .ok (u, r))
    (h1 : i.inType = u.inType) (h2 : i.scriptPub = u.scriptPub) (h3 : i.scriptSig = u.scriptSig) (h4 : i.scriptMulti = u.scriptMulti) :
    (¬ (w = false ∧ i.inType = .multi) → x :: b = unlockRead i ++ r) ∧
    (i.inType = .empty → w = false ∧ i.scriptPub = [] ∧ i.scriptSig = [] ∧ i.scriptMulti = []) ∧
    (i.inType = .bech32 ∨ i.inType = .p2wpkh → w = true) ∧
    (i.inType = .p2wpkh → i.scriptPub.length = 0x17) := by
  unfold decodeUnlock at h
  by_cases c1 : x = 0
  · rw [if_pos c1] at h
    cases h
    subst c1
    cases w with
    | true => simp only [if_true] at h1; simp [unlockRead, h1]
    | false =>
      simp only [Bool.false_eq_true, if_false] at h1
      simp [unlockRead, h1, h2, h3, h4]
  rw [if_neg c1] at h
  by_cases c2 : x = 0x17
  · rw [if_pos c2] at h
    cases w with
    | false => simp at h
    | true =>
      simp only [Bool.not_true, Bool.false_eq_true, if_false] at h
      obtain ⟨⟨s, b2⟩, k1, k2⟩ := Res.bind_eq_ok.mp h
      cases k2
      obtain ⟨e1, e2⟩ := takeN_inv k1
      simp [unlockRead, h1, h2, e1, e2, c2]
  rw [if_neg c2] at h
  by_cases c3 : x = 0x23
  · rw [if_pos c3] at h
    cases w with
    | false => simp at h
    | true =>
      simp only [Bool.not_true, Bool.false_eq_true, if_false] at h
      obtain ⟨⟨s, b2⟩, k1, k2⟩ := Res.bind_eq_ok.mp h
      cases k2
      obtain ⟨e1, e2⟩ := takeN_inv k1
      simp [unlockRead, h1, h2, e1, c3]
  rw [if_neg c3] at h
  by_cases c4 : x ≤ 0x6c
  · rw [if_pos c4] at h
    obtain ⟨⟨s, b2⟩, k1, k2⟩ := Res.bind_eq_ok.mp h
    cases k2
    obtain ⟨e1, e2⟩ := takeN_inv k1
    simp [unlockRead, h1, h3, e1, e2]
  rw [if_neg c4] at h
  cases w with
  | true => simp at h
  | false =>
    have hm : u.inType = .multi := by
      simp only [Bool.false_eq_true, if_false] at h
      by_cases c5 : x = 0xfd
      · rw [if_pos c5] at h
        split_ifs at h
        cases h; rfl
      · rw [if_neg c5] at h
        by_cases c6 : x > 0xfd
        · rw [if_pos c6] at h; cases h
        · rw [if_neg c6] at h
          obtain ⟨⟨s, b2⟩, k1, k2⟩ := Res.bind_eq_ok.mp h
          cases k2; rfl
    simp [h1, hm]

theorem decodeIn_inv {w : Bool} {spare : Nat} {b r : Bytes} {i : TxIn} (h : decodeIn w spare b = .ok (i, r)) :
    Shape w i ∧ (¬ (w = false ∧ i.inType = .multi) → b = inRead i ++ r) := by
  unfold decodeIn at h
  obtain ⟨⟨x1, b1⟩, k1, h⟩ := Res.bind_eq_ok.mp h
  obtain ⟨⟨x2, b2⟩, k2, h⟩ := Res.bind_eq_ok.mp h
  obtain ⟨⟨x3, b3⟩, k3, h⟩ := Res.bind_eq_ok.mp h
  obtain ⟨⟨u, b4⟩, k4, h⟩ := Res.bind_eq_ok.mp h
  obtain ⟨⟨x5, b5⟩, k5, h⟩ := Res.bind_eq_ok.mp h
  simp only [Res.ok.injEq, Prod.mk.injEq] at h
  obtain ⟨hi, hr⟩ := h
  subst hr
  obtain ⟨e1, l1⟩ := takeN_inv k1
  obtain ⟨e2, l2⟩ := takeN_inv k2
  have e3 := take1_inv k3
  obtain ⟨e5, l5⟩ := takeSequence_inv k5
  obtain ⟨g1, g2, g3, g4⟩ := decodeUnlock_inv (i := i) k4 (by rw [← hi]) (by rw [← hi]) (by rw [← hi]) (by rw [← hi])
  refine ⟨⟨by rw [← hi]; exact l1, by rw [← hi]; exact l2, by rw [← hi]; exact l5, g2, g3, g4⟩, fun hn => ?_⟩
  have g := g1 hn
  unfold inRead
  rw [e1, e2, e3, g, e5]
  have q1 : i.txid = x1 := by rw [← hi]
  have q2 : i.vout = x2 := by rw [← hi]
  have q3 : i.sequence = x5 := by rw [← hi]
  simp only [q1, q2, q3, List.append_assoc]

theorem decodeIns_inv {w : Bool} {spare : Nat} : ∀ (n : Nat) {b r : Bytes} {is : List TxIn}, decodeIns w spare n b = .ok (is, r) →
    is.length = n ∧ (∀ i ∈ is, Shape w i) ∧ ((w = true ∨ ∀ i ∈ is, i.inType ≠ .multi) → b = (is.map inRead).flatten ++ r)
  | 0, b, r, is, h => by
    simp only [decodeIns, Res.ok.injEq, Prod.mk.injEq] at h
    obtain ⟨rfl, rfl⟩ := h
    simp
  | n + 1, b, r, is, h => by
    unfold decodeIns at h
    obtain ⟨⟨i, b1⟩, k1, h⟩ := Res.bind_eq_ok.mp h
    obtain ⟨⟨js, b2⟩, k2, h⟩ := Res.bind_eq_ok.mp h
    simp only [Res.ok.injEq, Prod.mk.injEq] at h
    obtain ⟨rfl, rfl⟩ := h
    obtain ⟨a1, a2⟩ := decodeIn_inv k1
    obtain ⟨c1, c2, c3⟩ := decodeIns_inv n k2
    refine ⟨by simp [c1], ?_, ?_⟩
    · intro j hj
      rcases List.mem_cons.mp hj with rfl | hj
      · exact a1
      · exact c2 j hj
    · intro hw
      rw [a2 (by
        rintro ⟨q1, q2⟩
        rcases hw with hw | hw
        · rw [hw] at q1; cases q1
        · exact hw i (by simp) q2)]
      simp only [List.map_cons, List.flatten_cons, List.append_assoc]
      rw [c3 (hw.imp id (fun hw j hj => hw j (by simp [hj])))]

theorem decodeOuts_inv : ∀ (n : Nat) {b r : Bytes} {os : List TxOut}, decodeOuts n b = .ok (os, r) →
    os.length = n ∧ (∀ o ∈ os, o.amount.length = 8 ∧ o.lockScript ≠ [] ∧ o.lockScript.length < 256) ∧
      b = (os.map outRead).flatten ++ r
  | 0, b, r, os, h => by
    simp only [decodeOuts, Res.ok.injEq, Prod.mk.injEq] at h
    obtain ⟨rfl, rfl⟩ := h
    simp
  | n + 1, b, r, os, h => by
    unfold decodeOuts at h
    obtain ⟨⟨o, b1⟩, k1, h⟩ := Res.bind_eq_ok.mp h
    obtain ⟨⟨ps, b2⟩, k2, h⟩ := Res.bind_eq_ok.mp h
    simp only [Res.ok.injEq, Prod.mk.injEq] at h
    obtain ⟨rfl, rfl⟩ := h
    obtain ⟨c1, c2, c3⟩ := decodeOuts_inv n k2
    unfold decodeOut at k1
    obtain ⟨⟨x1, b3⟩, m1, k1⟩ := Res.bind_eq_ok.mp k1
    obtain ⟨⟨x2, b4⟩, m2, k1⟩ := Res.bind_eq_ok.mp k1
    simp only at k1
    by_cases hz : x2 = 0
    · rw [if_pos hz] at k1; cases k1
    rw [if_neg hz] at k1
    obtain ⟨⟨x3, b5⟩, m3, k1⟩ := Res.bind_eq_ok.mp k1
    simp only [Res.ok.injEq, Prod.mk.injEq] at k1
    obtain ⟨rfl, rfl⟩ := k1
    obtain ⟨e1, l1⟩ := takeN_inv m1
    have e2 := take1_inv m2
    obtain ⟨e3, l3⟩ := takeN_inv m3
    have hlt := x2.toNat_lt
    have hne : x3 ≠ [] := by
      rintro rfl
      apply hz
      rw [← UInt8.toNat_inj]
      exact l3.symm
    refine ⟨by simp [c1], ?_, ?_⟩
    · intro p hp
      rcases List.mem_cons.mp hp with rfl | hp
      · exact ⟨l1, hne, by dsimp only; omega⟩
      · exact c2 p hp
    · rw [e1, e2, e3, c3]
      simp [outRead, l3]

theorem copySigs_inv : ∀ (f : Nat) {acc b acc' b' : Bytes}, copySigs f acc b = .ok (acc', b') → acc ++ b = acc' ++ b'
  | 0, acc, b, acc', b', h => by simp [copySigs] at h
  | f + 1, acc, b, acc', b', h => by
    unfold copySigs at h
    split at h
    · rename_i sigLen x r
      by_cases c1 : x ≠ 0x30
      · rw [if_pos c1] at h; cases h; rfl
      rw [if_neg c1] at h
      by_cases c2 : (x :: r).length < sigLen.toNat
      · rw [if_pos c2] at h; cases h
      rw [if_neg c2] at h
      rw [← copySigs_inv f h]
      simp only [List.append_assoc, List.cons_append, List.take_append_drop]
    · cases h

theorem decodeWitnessMulti_inv {b s r : Bytes} (h : decodeWitnessMulti b = .ok (s, r)) : b = s ++ r := by
  unfold decodeWitnessMulti at h
  split at h
  · cases h
  · rename_i z b
    by_cases c1 : z ≠ 0
    · rw [if_pos c1] at h; cases h
    rw [if_neg c1] at h
    simp only [not_not] at c1
    subst c1
    split at h
    · rename_i acc redeemLen b' hk
      have e := copySigs_inv _ hk
      by_cases c2 : b'.length < redeemLen.toNat
      · rw [if_pos c2] at h; cases h
      rw [if_neg c2] at h
      by_cases c3 : (b'.take redeemLen.toNat).getLastD 0 ≠ 0xae
      · rw [if_pos c3] at h; cases h
      rw [if_neg c3] at h
      cases h
      rw [List.cons_append, List.nil_append] at e
      rw [e]
      simp only [List.append_assoc, List.cons_append, List.take_append_drop]
    · cases h
    · cases h
    · cases h

theorem decodeWitness_inv {seg : Bool} {i i' : TxIn} {b r : Bytes} (hs : Shape true i) (h : decodeWitness seg i b = .ok (i', r)) :
    b = witnessRead i' ++ r ∧ inRead i' = inRead i ∧ Shape true i' ∧ i'.inType = i.inType ∧ (i'.inType = .multi → seg = true) := by
  rcases i with ⟨ty, tx, vo, sp, ss, sq, sm⟩
  unfold decodeWitness at h
  obtain ⟨⟨c, b1⟩, k1, h⟩ := Res.bind_eq_ok.mp h
  have e1 := take1_inv k1
  obtain ⟨s1, s2, s3, s4, s5, s6⟩ := hs
  cases ty with
  | empty => have := (s4 rfl).1; cases this
  | p2pkh =>
    dsimp only at h
    by_cases c1 : c ≠ 0x00
    · rw [if_pos c1] at h; cases h
    rw [if_neg c1] at h
    simp only [not_not] at c1
    cases h
    exact ⟨by rw [e1, c1]; rfl, rfl, ⟨s1, s2, s3, s4, s5, s6⟩, rfl, by simp⟩
  | p2wpkh =>
    dsimp only at h
    by_cases c1 : c ≠ 0x02
    · rw [if_pos c1] at h; cases h
    rw [if_neg c1] at h
    simp only [not_not] at c1
    cases b1 with
    | nil => cases h
    | cons sl rr =>
      dsimp only at h
      obtain ⟨⟨s, r2⟩, k2, h⟩ := Res.bind_eq_ok.mp h
      cases h
      obtain ⟨e2, _⟩ := takeN_inv k2
      exact ⟨by rw [e1, e2, c1]; rfl, rfl, ⟨s1, s2, s3, by simp, by simp, fun _ => s6 rfl⟩, rfl, by simp⟩
  | bech32 =>
    dsimp only at h
    by_cases c1 : c ≠ 0x02
    · rw [if_pos c1] at h; cases h
    rw [if_neg c1] at h
    simp only [not_not] at c1
    cases b1 with
    | nil => cases h
    | cons sl rr =>
      dsimp only at h
      obtain ⟨⟨s, r2⟩, k2, h⟩ := Res.bind_eq_ok.mp h
      cases h
      obtain ⟨e2, _⟩ := takeN_inv k2
      exact ⟨by rw [e1, e2, c1]; rfl, rfl, ⟨s1, s2, s3, by simp, by simp, by simp⟩, rfl, by simp⟩
  | multi =>
    dsimp only at h
    cases seg with
    | false => simp at h
    | true =>
      simp only [Bool.not_true, Bool.false_eq_true, if_false] at h
      by_cases c1 : c ≠ 0x04
      · rw [if_pos c1] at h; cases h
      rw [if_neg c1] at h
      simp only [not_not] at c1
      obtain ⟨⟨s, r2⟩, k2, h⟩ := Res.bind_eq_ok.mp h
      cases h
      have e2 := decodeWitnessMulti_inv k2
      exact ⟨by rw [e1, e2, c1]; rfl, rfl, ⟨s1, s2, s3, by simp, by simp, by simp⟩, rfl, fun _ => rfl⟩

theorem decodeWitnesses_inv {seg : Bool} : ∀ (is : List TxIn) {is' : List TxIn} {b r : Bytes}, (∀ i ∈ is, Shape true i) →
    decodeWitnesses seg is b = .ok (is', r) →
    b = (is'.map witnessRead).flatten ++ r ∧ is'.map inRead = is.map inRead ∧ (∀ i ∈ is', Shape true i) ∧
      is'.map TxIn.inType = is.map TxIn.inType ∧ (∀ i ∈ is', i.inType = .multi → seg = true)
  | [], is', b, r, _, h => by
    simp only [decodeWitnesses, Res.ok.injEq, Prod.mk.injEq] at h
    obtain ⟨rfl, rfl⟩ := h
    simp
  | i :: is, is', b, r, hs, h => by
    unfold decodeWitnesses at h
    obtain ⟨⟨j, b1⟩, k1, h⟩ := Res.bind_eq_ok.mp h
    obtain ⟨⟨js, b2⟩, k2, h⟩ := Res.bind_eq_ok.mp h
    simp only [Res.ok.injEq, Prod.mk.injEq] at h
    obtain ⟨rfl, rfl⟩ := h
    obtain ⟨a1, a2, a3, a4, a5⟩ := decodeWitness_inv (hs i (by simp)) k1
    obtain ⟨c1, c2, c3, c4, c5⟩ := decodeWitnesses_inv is (fun k hk => hs k (by simp [hk])) k2
    refine ⟨?_, by simp [a2, c2], ?_, by simp [a4, c4], ?_⟩
    · rw [a1, c1]; simp
    · intro k hk
      rcases List.mem_cons.mp hk with rfl | hk
      · exact a3
      · exact c3 k hk
    · intro k hk
      rcases List.mem_cons.mp hk with rfl | hk
      · exact a5
      · exact c5 k hk

/-- What was read, from the input count on. -/
def bodyRead (t : Tx) : Bytes :=
  UInt8.ofNat t.vins.length :: ((t.vins.map inRead).flatten ++ UInt8.ofNat t.vouts.length :: ((t.vouts.map outRead).flatten ++
    ((if t.witness then (t.vins.map witnessRead).flatten else []) ++ t.lockTime)))

/-- What is known of a decoded transaction. -/
structure Decoded (seg : Bool) (t : Tx) : Prop where
  lockTime : t.lockTime.length = 4
  ins : t.vins ≠ [] ∧ t.vins.length < 256 ∧ ∀ i ∈ t.vins, Shape t.witness i
  multi : t.witness = true → ∀ i ∈ t.vins, i.inType = .multi → seg = true
  outs : t.vouts ≠ [] ∧ t.vouts.length < 256 ∧ ∀ o ∈ t.vouts, o.amount.length = 8 ∧ o.lockScript ≠ [] ∧ o.lockScript.length < 256

theorem decodeBody_inv {spare : Nat} {seg w : Bool} {v b : Bytes} {t : Tx} (h : decodeBody spare seg w v b = .ok t) :
    t.version = v ∧ t.witness = w ∧ Decoded seg t ∧ ((w = true ∨ ∀ i ∈ t.vins, i.inType ≠ .multi) → b = bodyRead t) := by
  have hw := decodeBody_witness h
  unfold decodeBody at h
  obtain ⟨⟨n, b1⟩, k1, h⟩ := Res.bind_eq_ok.mp h
  simp only at h
  by_cases hn : n = 0
  · rw [if_pos hn] at h; simp at h
  rw [if_neg hn] at h
  obtain ⟨⟨ins, b2⟩, k2, h⟩ := Res.bind_eq_ok.mp h
  obtain ⟨⟨m, b3⟩, k3, h⟩ := Res.bind_eq_ok.mp h
  simp only at h
  by_cases hm : m = 0
  · rw [if_pos hm] at h; simp at h
  rw [if_neg hm] at h
  obtain ⟨⟨outs, b4⟩, k4, h⟩ := Res.bind_eq_ok.mp h
  dsimp only at k2 k3 k4 h
  have e1 := take1_inv k1
  obtain ⟨i1, i2, i3⟩ := decodeIns_inv _ k2
  have e3 := take1_inv k3
  obtain ⟨o1, o2, o3⟩ := decodeOuts_inv _ k4
  have hn0 : n.toNat ≠ 0 := fun e => hn (UInt8.toNat_inj.mp e)
  have hm0 : m.toNat ≠ 0 := fun e => hm (UInt8.toNat_inj.mp e)
  have nlt := n.toNat_lt
  have mlt := m.toNat_lt
  have key : ∀ (ins' : List TxIn) (b5 : Bytes), (do
      let x ← takeN 4 b5
      if x.2 ≠ [] then Res.err
      else Res.ok ({ version := v, vins := ins', vouts := outs, lockTime := x.1, witness := w } : Tx)) = .ok t →
      t.vins = ins' ∧ t.vouts = outs ∧ t.version = v ∧ b5 = t.lockTime ∧ t.lockTime.length = 4 := by
    intro ins' b5 h
    obtain ⟨⟨lt, b6⟩, k6, h⟩ := Res.bind_eq_ok.mp h
    simp only at h
    by_cases hb : b6 = []
    · rw [if_neg (by simp [hb])] at h
      obtain ⟨e6, l6⟩ := takeN_inv k6
      rw [hb, List.append_nil] at e6
      cases h
      exact ⟨rfl, rfl, rfl, e6, l6⟩
    · rw [if_pos hb] at h; simp at h
  have ho : ∀ os : List TxOut, os = outs → os ≠ [] ∧ os.length < 256 ∧ ∀ o ∈ os, o.amount.length = 8 ∧ o.lockScript ≠ [] ∧ o.lockScript.length < 256 := by
    rintro os rfl
    exact ⟨by rintro rfl; exact hm0 o1.symm, by omega, o2⟩
  cases w with
  | false =>
    simp only [Bool.false_eq_true, if_false, Res.bind_ok] at h
    obtain ⟨hins, houts, hver, hlt, hll⟩ := key _ _ h
    refine ⟨hver, hw, ⟨hll, ?_, by rw [hw]; simp, ho _ houts⟩, ?_⟩
    · rw [hins, hw]
      exact ⟨by rintro rfl; exact hn0 i1.symm, by omega, i2⟩
    · intro hc
      rw [hins] at hc
      unfold bodyRead
      rw [hins, houts, hw, e1, i3 hc, e3, o3, hlt, i1, o1]
      simp
  | true =>
    simp only [if_true] at h
    obtain ⟨⟨ins', b5⟩, k5, h⟩ := Res.bind_eq_ok.mp h
    obtain ⟨hins, houts, hver, hlt, hll⟩ := key _ _ h
    dsimp only at hins hlt k5
    obtain ⟨w1, w2, w3, w4, w5⟩ := decodeWitnesses_inv ins i2 k5
    have hl : ins'.length = ins.length := by simpa using congrArg List.length w2
    refine ⟨hver, hw, ⟨hll, ?_, ?_, ho _ houts⟩, ?_⟩
    · rw [hins, hw]
      exact ⟨by rintro rfl; exact hn0 (by rw [← i1, ← hl]; rfl), by omega, w3⟩
    · intro _
      rw [hins]; exact w5
    · intro _
      unfold bodyRead
      rw [hins, houts, hw, e1, i3 (Or.inl rfl), e3, o3, w1, hlt, w2, hl, i1, o1]
      simp

/-- The bytes a decoded transaction was read from. -/
def allRead (t : Tx) : Bytes := t.version ++ ((if t.witness then [0x00, 0x01] else []) ++ bodyRead t)

theorem decodeTxV_inv {v spare : Nat} {seg : Bool} {b : Bytes} {t : Tx} (h : decodeTxV v spare seg b = .ok t) :
    t.version.length = 4 ∧ leNat t.version = v ∧ Decoded seg t ∧
      ((t.witness = true ∨ ∀ i ∈ t.vins, i.inType ≠ .multi) → b = allRead t) := by
  unfold decodeTxV at h
  obtain ⟨⟨ver, b1⟩, k1, h⟩ := Res.bind_eq_ok.mp h
  obtain ⟨e1, l1⟩ := takeN_inv k1
  simp only at h
  by_cases hv : leNat ver ≠ v
  · rw [if_pos hv] at h; cases h
  rw [if_neg hv] at h
  simp only [not_not] at hv
  by_cases hl : b1.length < 2
  · rw [if_pos hl] at h; cases h
  rw [if_neg hl] at h
  split at h
  · rename_i w r
    by_cases hw : w ≠ 0x01
    · rw [if_pos hw] at h; cases h
    rw [if_neg hw] at h
    simp only [not_not] at hw
    obtain ⟨q1, q2, q3, q4⟩ := decodeBody_inv h
    refine ⟨by rw [q1]; exact l1, by rw [q1]; exact hv, q3, fun _ => ?_⟩
    rw [e1, q4 (Or.inl rfl), allRead, q1, q2, hw]; rfl
  · obtain ⟨q1, q2, q3, q4⟩ := decodeBody_inv h
    refine ⟨by rw [q1]; exact l1, by rw [q1]; exact hv, q3, fun hc => ?_⟩
    rw [q2] at hc
    rw [e1, q4 hc, allRead, q1, q2]; rfl

end BtcParse

namespace BtcParse

theorem outRead_ser {o : TxOut} (h : o.amount.length = 8 ∧ o.lockScript ≠ [] ∧ o.lockScript.length < 256) (hl : o.lockScript.length < 253) :
    outRead o = RawOut.ser ⟨leNat o.amount, o.lockScript⟩ := by
  simp only [outRead, RawOut.ser, varBytes, leBytes_leNat' h.1, compactSize_small hl, List.cons_append, List.nil_append]

theorem encodeIns {seg w : Bool} : ∀ (is : List TxIn), (∀ i ∈ is, Shape w i) → (∀ i ∈ is, i.inType ≠ .p2wpkh) → (∀ i ∈ is, i.inType = .multi → seg = true) →
    concatAll (encodeIn seg) is = .ok (is.map inRead).flatten := by
  intro is h1 h2 h3
  apply concatAll_ok
  intro i hi
  have g := h1 i hi
  unfold encodeIn inRead
  rw [if_neg (by simp [g.txid, g.vout, g.sequence])]
  congr 3
  unfold unlockBytes unlockRead
  cases ht : i.inType with
  | empty => simp [(g.empty ht).2.1]
  | p2pkh => rfl
  | p2wpkh => exact absurd ht (h2 i hi)
  | bech32 => rfl
  | multi => simp [h3 i hi ht]

theorem encodeOuts (os : List TxOut) (h : ∀ o ∈ os, o.amount.length = 8 ∧ o.lockScript ≠ [] ∧ o.lockScript.length < 256) :
    concatAll encodeOut os = .ok (os.map outRead).flatten := by
  apply concatAll_ok
  intro o ho
  obtain ⟨a, b, _⟩ := h o ho
  unfold encodeOut outRead
  rw [if_neg (by simp [a, b])]
  simp

theorem encodeWits (is : List TxIn) (h : ∀ i ∈ is, Shape true i) : concatAll encodeWitness is = .ok (is.map witnessRead).flatten := by
  apply concatAll_ok
  intro i hi
  unfold encodeWitness witnessRead
  cases ht : i.inType with
  | empty => have := ((h i hi).empty ht).1; cases this
  | p2pkh => rfl
  | p2wpkh => rfl
  | bech32 => rfl
  | multi => rfl

end BtcParse

open BtcParse

/-- C139, partial: if the decoder of a Bitcoin package (`v` is its transaction version) reads a byte string as a transaction without unlocking data, with fewer
than 253 inputs, outputs and bytes per script, then the byte string is the standard serialisation of that transaction, and nothing follows it.
Missing: larger counts (see `C139_counts_violated`). -/
theorem C139_unsigned_partial (v spare : Nat) (segwitOn : Bool) (b : Bytes) (t : Tx) (h : decodeTxV v spare segwitOn b = .ok t)
    (he : ∀ i ∈ t.vins, i.inType = .empty) (h1 : t.vins.length < 253) (h2 : t.vouts.length < 253) (h3 : ∀ o ∈ t.vouts, o.lockScript.length < 253) :
    ∃ r : RawTx, UnsignedV v r ∧ b = r.ser ∧ r.lockTime = leNat t.lockTime ∧
      List.Forall₂ (fun i x => x.prev = i.txid ∧ x.index = leNat i.vout ∧ x.sequence = leNat i.sequence) t.vins r.ins ∧
      List.Forall₂ (fun o x => x.value = leNat o.amount ∧ x.script = o.lockScript) t.vouts r.outs := by
  obtain ⟨g1, g2, g3, g4⟩ := decodeTxV_inv h
  have hb := g4 (Or.inr fun i hi => by rw [he i hi]; decide)
  obtain ⟨i1, i2, i3⟩ := g3.ins
  obtain ⟨o1, o2, o3⟩ := g3.outs
  have hw : t.witness = false := by
    obtain ⟨i, hi⟩ := List.exists_mem_of_ne_nil _ i1
    exact ((i3 i hi).empty (he i hi)).1
  have lt4 : ∀ x : Bytes, x.length = 4 → leNat x < 2 ^ 32 := by
    intro x hx; have := leNat_lt x; rw [hx] at this; exact this
  refine ⟨toRaw t, ⟨?_, ?_, ?_, ?_, ?_, ?_, ?_, ?_⟩, ?_, rfl, ?_, ?_⟩
  · exact g2
  · exact lt4 _ g3.lockTime
  · simp only [toRaw, List.length_map]; exact List.length_pos_iff.mpr i1
  · simpa [toRaw] using h1
  · simp only [toRaw, List.length_map]; exact List.length_pos_iff.mpr o1
  · simpa [toRaw] using h2
  · intro x hx
    simp only [toRaw, List.mem_map] at hx
    obtain ⟨i, hi, rfl⟩ := hx
    have g := i3 i hi
    exact ⟨g.txid, lt4 _ g.vout, (g.empty (he i hi)).2.1, lt4 _ g.sequence⟩
  · intro x hx
    simp only [toRaw, List.mem_map] at hx
    obtain ⟨o, ho, rfl⟩ := hx
    obtain ⟨q1, q2, q3⟩ := o3 o ho
    refine ⟨?_, List.length_pos_iff.mpr q2, h3 o ho⟩
    have := leNat_lt o.amount; rw [q1] at this; exact this
  · rw [hb]
    unfold allRead bodyRead RawTx.ser toRaw
    rw [hw]
    simp only [List.length_map, compactSize_small h1, compactSize_small h2, leBytes_leNat' g1, leBytes_leNat' g3.lockTime, List.map_map,
      Bool.false_eq_true, if_false, List.nil_append, List.append_assoc, List.cons_append]
    have e1 : t.vins.map inRead = t.vins.map (RawIn.ser ∘ fun i => ⟨i.txid, leNat i.vout, i.scriptPub, leNat i.sequence⟩) := by
      apply List.map_congr_left
      intro i hi
      have g := i3 i hi
      simp only [inRead, unlockRead, he i hi, Function.comp_apply, RawIn.ser, RawIn.outpoint, (g.empty (he i hi)).2.1, leBytes_leNat' g.vout,
        leBytes_leNat' g.sequence]
      rfl
    have e2 : t.vouts.map outRead = t.vouts.map (RawOut.ser ∘ fun o => ⟨leNat o.amount, o.lockScript⟩) := by
      apply List.map_congr_left
      intro o ho
      exact outRead_ser (o3 o ho) (h3 o ho)
    rw [e1, e2]
  · simp only [toRaw, List.forall₂_map_right_iff]
    exact List.forall₂_same.mpr fun i _ => ⟨rfl, rfl, rfl⟩
  · simp only [toRaw, List.forall₂_map_right_iff]
    exact List.forall₂_same.mpr fun i _ => ⟨rfl, rfl⟩

/-- C139 fails from 253 on: a byte string read as an unsigned transaction with that many inputs or outputs, or with such a script, is not the standard
serialisation of any transaction with these inputs and outputs. -/
theorem C139_counts_violated (v spare : Nat) (segwitOn : Bool) (b : Bytes) (t : Tx) (h : decodeTxV v spare segwitOn b = .ok t)
    (he : ∀ i ∈ t.vins, i.inType = .empty)
    (hbig : 253 ≤ t.vins.length ∨ 253 ≤ t.vouts.length ∨ ∃ o ∈ t.vouts, 253 ≤ o.lockScript.length) (r : RawTx)
    (h1 : List.Forall₂ (fun i x => x.prev = i.txid ∧ x.index = leNat i.vout ∧ x.sequence = leNat i.sequence) t.vins r.ins)
    (h2 : List.Forall₂ (fun o x => x.value = leNat o.amount ∧ x.script = o.lockScript) t.vouts r.outs) : b ≠ r.ser := by
  obtain ⟨g1, g2, g3, g4⟩ := decodeTxV_inv h
  have hb := g4 (Or.inr fun i hi => by rw [he i hi]; decide)
  obtain ⟨i1, i2, i3⟩ := g3.ins
  obtain ⟨o1, o2, o3⟩ := g3.outs
  have hw : t.witness = false := by
    obtain ⟨i, hi⟩ := List.exists_mem_of_ne_nil _ i1
    exact ((i3 i hi).empty (he i hi)).1
  intro hc
  have hlen := congrArg List.length (hb.symm.trans hc)
  have li := h1.length_eq
  have lo := h2.length_eq
  have cs := fun n => compactSize_length n
  have insLe : ∀ (is : List TxIn) (xs : List RawIn), (∀ i ∈ is, Shape t.witness i) → (∀ i ∈ is, i.inType = .empty) →
      List.Forall₂ (fun i x => x.prev = i.txid ∧ x.index = leNat i.vout ∧ x.sequence = leNat i.sequence) is xs →
      ((is.map inRead).flatten).length ≤ ((xs.map RawIn.ser).flatten).length := by
    intro is xs hs hm hf
    induction hf with
    | nil => simp
    | @cons i x is xs hix _ ih =>
      have g := hs i (by simp)
      have := ih (fun j hj => hs j (by simp [hj])) (fun j hj => hm j (by simp [hj]))
      have k : (inRead i).length ≤ (RawIn.ser x).length := by
        have := (cs x.script.length).1
        simp only [inRead, unlockRead, hm i (by simp), RawIn.ser, RawIn.outpoint, varBytes, List.length_append, g.txid, g.vout, g.sequence,
          leBytes_length, hix.1, List.length_singleton]
        omega
      simp only [List.map_cons, List.flatten_cons, List.length_append]
      omega
  have outsLe : ∀ (os : List TxOut) (xs : List RawOut), (∀ o ∈ os, o.amount.length = 8 ∧ o.lockScript ≠ [] ∧ o.lockScript.length < 256) →
      List.Forall₂ (fun o x => x.value = leNat o.amount ∧ x.script = o.lockScript) os xs →
      ((os.map outRead).flatten).length ≤ ((xs.map RawOut.ser).flatten).length ∧
        ((∃ o ∈ os, 253 ≤ o.lockScript.length) → ((os.map outRead).flatten).length < ((xs.map RawOut.ser).flatten).length) := by
    intro os xs hs hf
    induction hf with
    | nil => simp
    | @cons o x os xs hox _ ih =>
      obtain ⟨j1, j2⟩ := ih (fun j hj => hs j (by simp [hj]))
      have g := hs o (by simp)
      obtain ⟨c1, c2⟩ := cs o.lockScript.length
      have e1 : (outRead o).length = 9 + o.lockScript.length := by
        simp only [outRead, List.length_append, List.length_cons, g.1]; omega
      have e2 : (RawOut.ser x).length = 8 + (compactSize o.lockScript.length).length + o.lockScript.length := by
        simp only [RawOut.ser, varBytes, List.length_append, leBytes_length, hox.2]; omega
      simp only [List.map_cons, List.flatten_cons, List.length_append, e1, e2]
      refine ⟨by omega, ?_⟩
      rintro ⟨p, hp, hl⟩
      rcases List.mem_cons.mp hp with rfl | hp
      · have := c2 hl; omega
      · have := j2 ⟨p, hp, hl⟩; omega
  have a1 := insLe _ _ i3 he h1
  obtain ⟨a2, a3⟩ := outsLe _ _ o3 h2
  have b1 := cs r.ins.length
  have b2 := cs r.outs.length
  rw [← li] at b1
  rw [← lo] at b2
  unfold allRead bodyRead RawTx.ser at hlen
  rw [hw, ← li, ← lo] at hlen
  simp only [List.length_append, List.length_cons, leBytes_length, g1, g3.lockTime, Bool.false_eq_true, if_false, List.length_nil] at hlen
  rcases hbig with hbig | hbig | hbig
  · have := b1.2 hbig; omega
  · have := b2.2 hbig; omega
  · have := a3 hbig; omega

/-- C139, partial: no two byte strings are read as the same transaction, unless it has a multisig input and no witness data. -/
theorem C139_injective_partial (v spare spare' : Nat) (seg seg' : Bool) (b b' : Bytes) (t : Tx) (h : decodeTxV v spare seg b = .ok t)
    (h' : decodeTxV v spare' seg' b' = .ok t) (hm : t.witness = true ∨ ∀ i ∈ t.vins, i.inType ≠ .multi) : b = b' := by
  rw [(decodeTxV_inv h).2.2.2 hm, (decodeTxV_inv h').2.2.2 hm]

/-- C139, partial: serialising the decoded transaction gives the bytes it was read from, unless it has a P2SH-P2WPKH input, or a multisig input and no witness
data. -/
theorem C139_reencode_partial (v spare : Nat) (seg : Bool) (b : Bytes) (t : Tx) (h : decodeTxV v spare seg b = .ok t)
    (hm : t.witness = true ∨ ∀ i ∈ t.vins, i.inType ≠ .multi) (hn : ∀ i ∈ t.vins, i.inType ≠ .p2wpkh) : encodeTx seg t = .ok b := by
  obtain ⟨g1, g2, g3, g4⟩ := decodeTxV_inv h
  obtain ⟨i1, i2, i3⟩ := g3.ins
  obtain ⟨o1, o2, o3⟩ := g3.outs
  have hmulti : ∀ i ∈ t.vins, i.inType = .multi → seg = true := by
    intro i hi ht
    rcases hm with hm | hm
    · exact g3.multi hm i hi ht
    · exact absurd ht (hm i hi)
  unfold encodeTx
  rw [if_neg (by simp [i1, o1, g1, g3.lockTime]), encodeIns t.vins i3 hn hmulti, encodeOuts t.vouts o3]
  simp only [Res.bind_ok]
  rw [g4 hm, allRead, bodyRead]
  cases hw : t.witness with
  | false => simp
  | true =>
    rw [if_pos rfl, encodeWits t.vins (by rw [hw] at i3; exact i3)]
    simp

/-- C139 fails for P2SH-P2WPKH inputs: serialising the decoded transaction never gives the bytes it was read from. -/
theorem C139_nested_violated (v spare : Nat) (seg : Bool) (b : Bytes) (t : Tx) (h : decodeTxV v spare seg b = .ok t)
    (hn : ∃ i ∈ t.vins, i.inType = .p2wpkh) : encodeTx seg t ≠ .ok b := by
  obtain ⟨g1, g2, g3, g4⟩ := decodeTxV_inv h
  obtain ⟨i1, i2, i3⟩ := g3.ins
  obtain ⟨o1, o2, o3⟩ := g3.outs
  obtain ⟨j, hj, hjt⟩ := hn
  have hw : t.witness = true := (i3 j hj).witness (Or.inr hjt)
  have hmulti := g3.multi hw
  have hb := g4 (Or.inl hw)
  intro hc
  unfold encodeTx at hc
  rw [if_neg (by simp [i1, o1, g1, g3.lockTime])] at hc
  obtain ⟨ins, k1, hc⟩ := Res.bind_eq_ok.mp hc
  rw [encodeOuts t.vouts o3, hw, if_pos rfl, encodeWits t.vins (by rw [hw] at i3; exact i3)] at hc
  simp only [Res.bind_ok, if_true, Res.ok.injEq] at hc
  have hlen : ∀ (is : List TxIn) (x : Bytes), (∀ i ∈ is, Shape t.witness i) → (∀ i ∈ is, i.inType = .multi → seg = true) →
      concatAll (encodeIn seg) is = .ok x → ((is.map inRead).flatten).length ≤ x.length ∧
        ((∃ i ∈ is, i.inType = .p2wpkh) → ((is.map inRead).flatten).length < x.length) := by
    intro is
    induction is with
    | nil => intro x _ _ hx; simp
    | cons i is ih =>
      intro x hs hm hx
      unfold concatAll at hx
      obtain ⟨y, m1, hx⟩ := Res.bind_eq_ok.mp hx
      obtain ⟨z, m2, hx⟩ := Res.bind_eq_ok.mp hx
      cases hx
      obtain ⟨q1, q2⟩ := ih z (fun k hk => hs k (by simp [hk])) (fun k hk => hm k (by simp [hk])) m2
      have g := hs i (by simp)
      unfold encodeIn at m1
      rw [if_neg (by simp [g.txid, g.vout, g.sequence])] at m1
      cases m1
      have hu : (unlockRead i).length ≤ (unlockBytes seg i).length ∧ (i.inType = .p2wpkh → (unlockRead i).length < (unlockBytes seg i).length) := by
        unfold unlockRead unlockBytes
        cases ht : i.inType with
        | empty => simp
        | p2pkh => simp
        | p2wpkh => simp
        | bech32 => simp
        | multi => simp [hm i (by simp) ht]
      simp only [List.map_cons, List.flatten_cons, List.length_append, inRead]
      refine ⟨by omega, ?_⟩
      rintro ⟨k, hk, hkt⟩
      rcases List.mem_cons.mp hk with rfl | hk
      · have := hu.2 hkt; omega
      · have := q2 ⟨k, hk, hkt⟩; omega
  have := (hlen t.vins ins i3 hmulti k1).2 ⟨j, hj, hjt⟩
  have hl := congrArg List.length (hc.trans hb)
  simp only [allRead, bodyRead, hw, if_true, List.length_append, List.length_cons, List.length_nil] at hl
  omega

/-- C139 fails for multisig inputs without witness data: two different byte strings are read as the same transaction. The unlocking script of one is the
script of the other together with its three length bytes. -/
theorem C139_collision_violated (v : Nat) (hv : v < 2 ^ 32) (spare : Nat) (seg : Bool) (txid vout s sequence amount script lockTime : Bytes)
    (h1 : txid.length = 32) (h2 : vout.length = 4) (h3 : 106 ≤ s.length) (h4 : s.length ≤ 249) (h5 : sequence.length = 4) (h6 : amount.length = 8)
    (h7 : 1 ≤ script.length) (h8 : script.length < 253) (h9 : lockTime.length = 4) :
    let tail := sequence ++ [1] ++ amount ++ [UInt8.ofNat script.length] ++ script ++ lockTime
    let long := [0xfd] ++ leBytes 2 s.length ++ s
    let b := leBytes 4 v ++ [1] ++ txid ++ vout ++ long ++ tail
    let b' := leBytes 4 v ++ [1] ++ txid ++ vout ++ [UInt8.ofNat (s.length + 3)] ++ long ++ tail
    b ≠ b' ∧ ∃ t, decodeTxV v spare seg b = .ok t ∧ decodeTxV v spare seg b' = .ok t := by
  intro tail long b b'
  refine ⟨fun he => ?_, ?_⟩
  · have := congrArg List.length he
    simp only [b, b', List.length_append, List.length_singleton] at this
    omega
  have hn : (UInt8.ofNat (s.length + 3)).toNat = s.length + 3 := by rw [UInt8.toNat_ofNat']; omega
  have hlong : long.length = s.length + 3 := by simp [long]; omega
  have hscript : (UInt8.ofNat script.length).toNat = script.length := by rw [UInt8.toNat_ofNat']; omega
  have hs0 : UInt8.ofNat script.length ≠ 0 := u8_ofNat_ne0 (by omega) h7
  have unlockTail : ∀ x r, decodeUnlock false spare x (r ++ tail) = .ok (⟨.multi, [], [], long⟩, tail) →
      decodeTxV v spare seg (leBytes 4 v ++ [1] ++ txid ++ vout ++ x :: r ++ tail) =
        .ok ⟨leBytes 4 v, [⟨.multi, txid, vout, [], [], sequence, long⟩], [⟨amount, script⟩], lockTime, false⟩ := by
    intro x r hu
    have e1 : takeN 4 (leBytes 4 v ++ (1 :: (txid ++ (vout ++ x :: (r ++ tail))))) = .ok (leBytes 4 v, 1 :: (txid ++ (vout ++ x :: (r ++ tail)))) :=
      takeN_append _ _ (by simp)
    have e2 : decodeIn false spare (txid ++ (vout ++ x :: (r ++ tail))) = .ok (⟨.multi, txid, vout, [], [], sequence, long⟩,
        1 :: (amount ++ (UInt8.ofNat script.length :: (script ++ lockTime)))) := by
      unfold decodeIn
      rw [takeN_append _ _ h1]
      simp only [Res.bind_ok]
      rw [takeN_append _ _ h2]
      simp only [Res.bind_ok, take1, hu]
      have : takeSequence spare tail = .ok (sequence, 1 :: (amount ++ (UInt8.ofNat script.length :: (script ++ lockTime)))) := by
        unfold takeSequence
        rw [if_neg (by simp [tail]; omega)]
        simp only [tail, List.append_assoc]
        rw [List.take_left' h5, List.drop_left' h5]
        rfl
      rw [this]
      rfl
    have e3 : decodeOut (amount ++ (UInt8.ofNat script.length :: (script ++ lockTime))) = .ok (⟨amount, script⟩, lockTime) := by
      unfold decodeOut
      rw [takeN_append _ _ h6]
      simp only [Res.bind_ok, take1]
      rw [if_neg hs0, hscript, takeN_append _ _ rfl]
      rfl
    have e4 : takeN 4 lockTime = .ok (lockTime, []) := by
      have := takeN_append lockTime [] h9
      rwa [List.append_nil] at this
    have e5 : leBytes 4 v ++ [1] ++ txid ++ vout ++ x :: r ++ tail = leBytes 4 v ++ (1 :: (txid ++ (vout ++ x :: (r ++ tail)))) := by simp
    rw [e5]
    unfold decodeTxV
    rw [e1]
    simp only [Res.bind_ok]
    rw [if_neg (by rw [leNat_leBytes_of_lt (by omega)]; simp), if_neg (by simp)]
    split
    · rename_i h; simp at h
    · unfold decodeBody
      have o1 : (1 : UInt8).toNat = 1 := rfl
      simp only [take1, Res.bind_ok]
      rw [if_neg (by decide), o1]
      simp only [decodeIns, e2, Res.bind_ok]
      rw [if_neg (by decide), o1]
      simp only [decodeOuts, e3, Res.bind_ok, Bool.false_eq_true, if_false, e4]
      simp
  have hl2 : leNat (leBytes 2 s.length) = s.length := leNat_leBytes_of_lt (by omega)
  have hu1 : decodeUnlock false spare 0xfd ((leBytes 2 s.length ++ s) ++ tail) = .ok (⟨.multi, [], [], long⟩, tail) := by
    have g0 : ¬ ((0xfd : UInt8) = 0) := by decide
    have g1 : ¬ ((0xfd : UInt8) = 0x17) := by decide
    have g2 : ¬ ((0xfd : UInt8) = 0x23) := by decide
    have g3 : ¬ ((0xfd : UInt8) ≤ 0x6c) := by decide
    have hlen : ((leBytes 2 s.length ++ s) ++ tail).length = s.length + 2 + tail.length := by simp; omega
    have ht : (leBytes 2 s.length ++ s ++ tail).take 2 = leBytes 2 s.length := by
      rw [List.append_assoc]; exact List.take_left' (by simp)
    unfold decodeUnlock
    rw [if_neg g0, if_neg g1, if_neg g2, if_neg g3, if_neg (by simp), if_pos rfl, if_neg (by omega), ht, hl2]
    simp only
    rw [if_neg (by omega), if_neg (by omega), List.take_left' (by simp; omega), List.drop_left' (by simp; omega)]
    rfl
  have hu2 : decodeUnlock false spare (UInt8.ofNat (s.length + 3)) (long ++ tail) = .ok (⟨.multi, [], [], long⟩, tail) := by
    have ne : ∀ c : UInt8, c.toNat ≠ s.length + 3 → ¬ (UInt8.ofNat (s.length + 3) = c) := by
      rintro c hc rfl; exact hc hn
    have g3 : ¬ (UInt8.ofNat (s.length + 3) ≤ 0x6c) := by
      rw [UInt8.le_iff_toNat_le, hn]; have : (0x6c : UInt8).toNat = 108 := rfl
      omega
    have g4 : ¬ (UInt8.ofNat (s.length + 3) > 0xfd) := by
      rw [gt_iff_lt, UInt8.lt_iff_toNat_lt, hn]; have : (0xfd : UInt8).toNat = 253 := rfl
      omega
    unfold decodeUnlock
    rw [if_neg (ne _ ?_), if_neg (ne _ ?_), if_neg (ne _ ?_), if_neg g3, if_neg (by simp), if_neg (ne _ ?_), if_neg g4, hn,
      takeN_append _ _ hlong]
    · rfl
    all_goals
      simp only [UInt8.reduceToNat]
      omega
  refine ⟨⟨leBytes 4 v, [⟨.multi, txid, vout, [], [], sequence, long⟩], [⟨amount, script⟩], lockTime, false⟩, ?_, ?_⟩
  · have := unlockTail 0xfd (leBytes 2 s.length ++ s) hu1
    rw [← this]
    simp [b, long]
  · have := unlockTail (UInt8.ofNat (s.length + 3)) long hu2
    rw [← this]
    simp [b']

-- a script of 120 bytes meets the hypotheses
example : 106 ≤ (List.replicate 120 (7 : UInt8)).length ∧ (List.replicate 120 (7 : UInt8)).length ≤ 249 := by decide

-- the decoder reads the standard serialisation of every unsigned transaction (C20 and `decode_unsignedV`), so the hypotheses of the theorems above are met
example (spare : Nat) (t : RawTx) (hu : UnsignedV 2 t) : ∃ x, decodeTxV 2 spare true t.ser = .ok x ∧ ∀ i ∈ x.vins, i.inType = .empty := by
  refine ⟨_, decode_unsignedV (by norm_num) hu true spare, ?_⟩
  intro i hi
  simp only [ofRaw, List.mem_map] at hi
  obtain ⟨j, _, rfl⟩ := hi
  rfl

-- and a transaction with a P2SH-P2WPKH input is read
example : ∃ b t, decodeTxV 2 0 true b = .ok t ∧ (∃ i ∈ t.vins, i.inType = .p2wpkh) ∧ t.witness = true := by
  have h : (match decodeTxV 2 0 true (leBytes 4 2 ++ [0, 1, 1] ++ List.replicate 36 7 ++ [0x17] ++ List.replicate 23 9 ++ [0xff, 0xff, 0xff, 0xff] ++
      [1] ++ List.replicate 8 0 ++ [1, 0x51] ++ [2, 1] ++ List.replicate 35 3 ++ [0, 0, 0, 0]) with
    | .ok t => t.vins.any (fun i => i.inType == .p2wpkh) && t.witness
    | _ => false) = true := by decide +kernel
  split at h
  · rename_i t ht
    rw [Bool.and_eq_true, List.any_eq_true] at h
    obtain ⟨⟨i, hi, hx⟩, hw⟩ := h
    exact ⟨_, t, ht, ⟨i, hi, by simpa using hx⟩, hw⟩
  · cases h

set_option maxRecDepth 100000 in
-- as is one with 253 outputs written with a single byte
example : ∃ b t, decodeTxV 2 0 true b = .ok t ∧ (∀ i ∈ t.vins, i.inType = .empty) ∧ 253 ≤ t.vouts.length := by
  have h : (match decodeTxV 2 0 true (leBytes 4 2 ++ [1] ++ List.replicate 36 7 ++ [0] ++ [0xff, 0xff, 0xff, 0xff] ++
      [253] ++ (List.replicate 253 (List.replicate 8 (0 : UInt8) ++ [1, 0x51])).flatten ++ [0, 0, 0, 0]) with
    | .ok t => t.vins.all (fun i => i.inType == .empty) && decide (253 ≤ t.vouts.length)
    | _ => false) = true := by decide +kernel
  split at h
  · rename_i t ht
    rw [Bool.and_eq_true, List.all_eq_true, decide_eq_true_eq] at h
    exact ⟨_, t, ht, fun i hi => by simpa using h.1 i hi, h.2⟩
  · cases h

end Verif
