import Verif.Spec.ForkCrash
import Verif.Props.InsertPanic
import Verif.Props.BtcRecord
import Verif.Props.BtcParse

/-! C141: exactly when hashing a transaction of Bitcoin Cash or Bitcoin SV crashes. -/

namespace Verif
open Verif.Btc Verif.BtcVariants
open Verif.Spec Verif.Spec.Cut Verif.Spec.Eip55 Verif.Spec.InsertCrash Verif.Spec.Crash Verif.Spec.ForkCrash

namespace ForkPanic

theorem readKeys_next : ∀ {f : Nat} {b rest : Bytes} {ks : List Bytes}, readKeys f b = .ok (ks, rest) → ∃ y r, rest = y :: r ∧ y ≠ 0x21
  | 0, _, _, _, h => by simp [readKeys] at h
  | f + 1, b, rest, ks, h => by
    unfold readKeys at h
    cases b with
    | nil => cases h
    | cons x r =>
      dsimp only at h
      by_cases hx : x ≠ 0x21
      · rw [if_pos hx] at h
        cases h
        exact ⟨x, r, rfl, hx⟩
      rw [if_neg hx] at h
      by_cases hl : r.length < 0x21
      · rw [if_pos hl] at h; cases h
      rw [if_neg hl] at h
      cases hr : readKeys f (r.drop 0x21) with
      | err => rw [hr] at h; cases h
      | panic => rw [hr] at h; cases h
      | ok z =>
        obtain ⟨ks', rest'⟩ := z
        rw [hr] at h
        cases h
        exact readKeys_next hr

theorem details_iff (r : Bytes) : (∃ x, getMultiDetails r = .ok x) ↔ ReadsMultisig r := by
  constructor
  · rintro ⟨⟨n, ks⟩, h⟩
    have hp := BtcRec.details_parts h
    obtain ⟨h1, h2, _, h4, tail, h5⟩ := hp
    refine ⟨n.toNat, ks, tail, h1, h2, h4, ?_, ?_, h5⟩
    all_goals
      unfold getMultiDetails at h
      obtain ⟨⟨x, b⟩, k1, h⟩ := Res.bind_eq_ok.mp h
      simp only at h
      split at h
      · simp at h
      obtain ⟨⟨ks', b'⟩, k2, h⟩ := Res.bind_eq_ok.mp h
      obtain ⟨⟨y, tl⟩, k3, h⟩ := Res.bind_eq_ok.mp h
      simp only at h
      split at h
      · simp at h
      rename_i ht
      simp only [Res.ok.injEq, Prod.mk.injEq] at h
      obtain ⟨rfl, rfl⟩ := h
      simp only [not_or, ne_eq, Decidable.not_not] at ht
    · have := ht.2
      rw [ht.1, UInt8.not_lt, UInt8.le_iff_toNat_le, UInt8.toNat_ofNat'] at this
      exact this
    · obtain ⟨y', r', e1, e2⟩ := readKeys_next k2
      subst e1
      simp only [take1, Res.ok.injEq, Prod.mk.injEq] at k3
      obtain ⟨rfl, rfl⟩ := k3
      intro hc
      apply e2
      have hy : ∀ y : UInt8, y = 0x50 + (y + 1 - 0x51) := by apply Hex.u8_forall; decide +kernel
      rw [hy y', ht.1]
      apply UInt8.toNat_inj.mp
      rw [UInt8.toNat_add, UInt8.toNat_ofNat']
      simp only [UInt8.reduceToNat]
      omega
  · rintro ⟨m, keys, tail, h1, h2, h3, h4, h5, rfl⟩
    have hlen : ((keys.map push).flatten).length = 34 * keys.length := by
      rw [flatten_length_map push (fun _ => 34) keys (fun k hkm => by simp [push, h3 k hkm])]
      simp only [List.map_const', List.sum_replicate_nat, Nat.mul_comm]
    have hy : UInt8.ofNat (0x50 + keys.length) ≠ 0x21 := by
      intro hc
      have := congrArg UInt8.toNat hc
      rw [UInt8.toNat_ofNat'] at this
      exact h5 this
    have e1 : UInt8.ofNat (0x50 + m) + 1 - 0x51 = UInt8.ofNat m := by
      apply UInt8.toNat_inj.mp
      simp [UInt8.toNat_sub, UInt8.toNat_add]
      omega
    have e2 : UInt8.ofNat (0x50 + keys.length) + 1 - 0x51 = UInt8.ofNat keys.length := by
      apply UInt8.toNat_inj.mp
      simp [UInt8.toNat_sub, UInt8.toNat_add]
      omega
    refine ⟨(UInt8.ofNat m, keys), ?_⟩
    unfold getMultiDetails
    simp only [List.append_assoc, List.cons_append, List.nil_append, take1, Res.bind_ok, e1]
    rw [if_neg]
    · rw [readKeys_ok _ tail hy keys _ (by simp [hlen]; omega) h3]
      simp only [Res.bind_ok, e2]
      rw [if_neg]
      rintro (h | h)
      · exact h rfl
      · rw [UInt8.lt_iff_toNat_lt, UInt8.toNat_ofNat', UInt8.toNat_ofNat'] at h
        omega
    · rintro (h | h)
      · rw [UInt8.le_iff_toNat_le, UInt8.toNat_ofNat'] at h
        simp only [UInt8.reduceToNat] at h
        omega
      · rw [gt_iff_lt, UInt8.lt_iff_toNat_lt, UInt8.toNat_ofNat'] at h
        simp only [UInt8.reduceToNat] at h
        omega

/-- What the steps need to know of the transaction. -/
structure Sound (t : Tx) : Prop where
  version : t.version.length = 4
  lockTime : t.lockTime.length = 4
  ins : ∀ i ∈ t.vins, i.txid.length = 32 ∧ i.vout.length = 4 ∧ i.sequence.length = 4
  outs : t.vouts ≠ [] ∧ ∀ o ∈ t.vouts, o.amount.length = 8 ∧ o.lockScript ≠ []

theorem concat_ok {α : Type} (f : α → Res Bytes) : ∀ l : List α, (∀ x ∈ l, ∃ b, f x = .ok b) → ∃ b, concatAll f l = .ok b
  | [], _ => ⟨[], rfl⟩
  | x :: xs, h => by
    obtain ⟨b, hb⟩ := h x (by simp)
    obtain ⟨bs, hbs⟩ := concat_ok f xs fun y hy => h y (by simp [hy])
    exact ⟨b ++ bs, by rw [concatAll, hb, Res.bind_ok, hbs]; rfl⟩

theorem concat_err {α : Type} (f : α → Res Bytes) (hf : ∀ x, f x ≠ .panic) : ∀ l : List α, (∃ x ∈ l, f x = .err) → concatAll f l = .err
  | [], h => by simp at h
  | x :: xs, h => by
    rw [concatAll]
    cases hx : f x with
    | err => rfl
    | panic => exact absurd hx (hf x)
    | ok b =>
      rw [Res.bind_ok, concat_err f hf xs]
      · rfl
      · obtain ⟨y, hy, h⟩ := h
        rcases List.mem_cons.mp hy with rfl | hy
        · rw [hx] at h; cases h
        · exact ⟨y, hy, h⟩

theorem encode_iff {t : Tx} (hs : Sound t) (hi : t.vins ≠ []) (hn : ∃ i ∈ t.vins, i.inType = .empty) : (∃ b, encodeTx false t = .ok b) ↔ t.witness = false := by
  unfold encodeTx
  have h0 : ¬ (t.vins = [] ∨ t.vouts = [] ∨ t.version.length ≠ 4 ∨ t.lockTime.length ≠ 4) := by
    simp [hi, hs.outs.1, hs.version, hs.lockTime]
  rw [if_neg h0]
  obtain ⟨ins, h1⟩ := concat_ok (encodeIn false) t.vins (by
    intro i hi
    obtain ⟨a, b, c⟩ := hs.ins i hi
    exact ⟨_, by unfold encodeIn; rw [if_neg (by simp [a, b, c])]⟩)
  obtain ⟨outs, h2⟩ := concat_ok encodeOut t.vouts (by
    intro o ho
    obtain ⟨a, b⟩ := hs.outs.2 o ho
    exact ⟨_, by unfold encodeOut; rw [if_neg (by simp [a, b])]⟩)
  rw [h1, Res.bind_ok, h2, Res.bind_ok]
  cases hw : t.witness with
  | false => simp
  | true =>
    rw [if_pos rfl, concat_err _ (by intro x; unfold encodeWitness; split <;> simp)]
    · simp
    · obtain ⟨i, hi, he⟩ := hn
      exact ⟨i, hi, by unfold encodeWitness; rw [he]⟩

theorem segwit_lock {H : Hashes} {t : Tx} {r : Bytes} (hr : ∃ x s, r = x :: s ∧ x ≠ 0) (i : TxIn) (a : UInt64) :
    (∃ b, segwitBytesForSig H t r i a = .ok b) ↔ a ≠ 0 := by
  obtain ⟨x, s, rfl, hx⟩ := hr
  unfold segwitBytesForSig scriptCode
  have : index (x :: s) 0 = .ok x := rfl
  simp only [this, Res.bind_ok, hx, if_false, false_and]
  by_cases ha : a = 0
  · simp [ha]
  · simp [ha]

theorem segwit_program {H : Hashes} {t : Tx} {k : Bytes} (hk : k.length = 20) (i : TxIn) (a : UInt64) :
    (∃ b, segwitBytesForSig H t (witnessV0Script k) i a = .ok b) ↔ a ≠ 0 := by
  unfold segwitBytesForSig
  have : ∃ c, scriptCode (witnessV0Script k) = .ok c := by
    unfold scriptCode witnessV0Script
    have h0 : index ((0x00 : UInt8) :: push k) 0 = .ok 0 := rfl
    have h1 : index ((0x00 : UInt8) :: push k) 1 = .ok 0x14 := by unfold push; rw [hk]; rfl
    have h2 : (push k).length = 21 := by simp [push, hk]
    simp [h0, h1, h2]
  obtain ⟨c, hc⟩ := this
  rw [hc, Res.bind_ok]
  by_cases ha : a = 0
  · simp [ha]
  · simp [ha]

theorem lock_eq {l r lock redeem : Bytes} {ty : InType} (h : checkBch l r = .ok (lock, redeem, ty)) : Hex.decode l = .ok lock := by
  unfold checkBch at h
  cases hd : Hex.decode l with
  | err => rw [hd] at h; cases h
  | panic => rw [hd] at h; cases h
  | ok s =>
    rw [hd] at h
    dsimp only at h
    split_ifs at h
    · cases h; rfl
    · cases hr : Hex.decode r with
      | err => rw [hr] at h; cases h
      | panic => rw [hr] at h; cases h
      | ok q =>
        rw [hr] at h
        dsimp only at h
        split_ifs at h <;> (cases h; rfl)
    · cases h; rfl

theorem step_cases (p : Hashes → AddressPrefix → Bytes → Res Bytes) (hp : ∀ H P h, h.length = 20 → ∃ a, p H P h = .ok a) (H : Hashes) (seg : Bool) (P : AddressPrefix) (t : Tx)
    (hs : Sound t) (k : Nat) (hk : k < t.vins.length) (hempty : ∀ i ∈ t.vins, i.inType = .empty) (u : TxUnlock) (F : Res TxHash)
    (hF : F = (checkBch u.lockScript u.redeemScript >>= fun x => bytesForSigBch H seg t x.1 x.2.1 x.2.2 u.sigType k u.amount >>= fun b =>
      newTxHashBch p H (H.hash .doubleSha256 b) x.1 x.2.1 x.2.2 u.sigType P)) :
    (F = .panic ↔ Program u) ∧ ((∃ h, F = .ok h) ↔ Recorded seg t.witness u) := by
  have hO := fun ty s => InsertPanic.opens_iff false true u ty s
  simp only [← InsertPanic.check_bch] at hO
  cases hc : checkBch u.lockScript u.redeemScript with
  | panic => exact absurd hc (SignPanic.checkBch_ne_panic _ _)
  | err =>
    have hno : ∀ ty s, ¬ Opens false true u ty s := by
      intro ty s h
      obtain ⟨_, h⟩ := (hO ty s).mpr h
      rw [hc] at h; cases h
    rw [hF, hc]
    refine ⟨iff_of_false (by simp) ?_, iff_of_false (by simp) ?_⟩
    · rintro ⟨_, _, s, h⟩; exact hno _ _ h
    · rintro ⟨_, ⟨_, s, h | h⟩ | ⟨s, h, _⟩⟩ <;> exact hno _ _ h
  | ok x =>
    obtain ⟨lock, redeem, ty⟩ := x
    have hop : Opens false true u ty redeem := (hO ty redeem).mp ⟨lock, hc⟩
    have huniq : ∀ ty' s', Opens false true u ty' s' → ty' = ty ∧ s' = redeem := by
      intro ty' s' h
      obtain ⟨l', h⟩ := (hO ty' s').mpr h
      rw [hc] at h
      cases h
      exact ⟨rfl, rfl⟩
    have hl := lock_eq hc
    have hck := SignPanic.check_bch hc
    have h0 := hck.kind
    rw [hc, Res.bind_ok] at hF
    dsimp only at hF
    by_cases hst : u.sigType ≠ 0x41
    · have : F = .err := by
        rw [hF]; unfold bytesForSigBch
        rw [if_pos ⟨hst, h0⟩]; rfl
      rw [this]
      exact ⟨iff_of_false (by simp) fun h => hst h.1, iff_of_false (by simp) fun h => hst h.1⟩
    have hst' : u.sigType = 0x41 := by simpa using hst
    have hbody : ¬ (u.sigType ≠ 0x41 ∧ ty ≠ .empty) := fun h => hst h.1
    unfold bytesForSigBch at hF
    rw [if_neg hbody] at hF
    have hi := index_ok hk
    cases ty with
    | empty => exact absurd rfl h0
    | p2pkh =>
      have hshape : ∃ x s, lock = x :: s ∧ x ≠ 0 := by
        obtain ⟨_, h, tail, _, _, e, _⟩ := hop
        rw [hl] at e
        exact ⟨_, _, Res.ok.inj e, by decide⟩
      have h25 := hck.p2pkh rfl
      have hseg := segwit_lock (H := H) (t := t) hshape (t.vins[k]) u.amount
      dsimp only at hF
      rw [hi, Res.bind_ok] at hF
      have hnew : ∀ d, ∃ th, newTxHashBch p H d lock redeem .p2pkh u.sigType P = .ok th := by
        intro d
        unfold newTxHashBch
        dsimp only
        rw [slice_ok (by omega) (by omega), Res.bind_ok]
        obtain ⟨a, ha⟩ := hp H P ((lock.take 23).drop 3) (by simp; omega)
        rw [ha]; exact ⟨_, rfl⟩
      have hprog : ¬ Program u := by
        rintro ⟨_, _, s, h⟩; cases (huniq _ _ h).1
      have hrec : Recorded seg t.witness u ↔ u.amount ≠ 0 := by
        constructor
        · rintro ⟨_, ⟨h, _⟩ | ⟨s, h, _⟩⟩
          · exact h
          · cases (huniq _ _ h).1
        · intro h; exact ⟨hst', .inl ⟨h, redeem, .inl hop⟩⟩
      rw [hrec, ← hseg]
      cases hb : segwitBytesForSig H t lock t.vins[k] u.amount with
      | panic => exact absurd hb (SignPanic.segwit_ne_panic H t (by omega) _ _)
      | err => rw [hb] at hF; subst hF; exact ⟨iff_of_false (by simp) hprog, by simp⟩
      | ok b =>
        rw [hb] at hF
        simp only [Res.bind_ok] at hF
        obtain ⟨th, hth⟩ := hnew (H.hash .doubleSha256 (b ++ leBytes 4 0x41))
        rw [hth] at hF
        subst hF
        exact ⟨iff_of_false (by simp) hprog, by simp⟩
    | p2wpkh =>
      have hshape : ∃ x s, lock = x :: s ∧ x ≠ 0 := by
        obtain ⟨h, tail, _, _, _, e, _⟩ := hop
        rw [hl] at e
        exact ⟨_, _, Res.ok.inj e, by decide⟩
      have h22 := (hck.nested rfl).1
      have hseg := segwit_lock (H := H) (t := t) hshape (t.vins[k]) u.amount
      dsimp only at hF
      rw [hi, Res.bind_ok] at hF
      have hnew : ∀ d, ∃ th, newTxHashBch p H d lock redeem .p2wpkh u.sigType P = .ok th := by
        intro d
        unfold newTxHashBch
        dsimp only
        rw [slice_ok (by omega) (by omega), Res.bind_ok]
        obtain ⟨a, ha, _⟩ := CheckMem.encodeCheck_total H P.p2wpkh ((lock.take 22).drop 2)
        rw [ha]; exact ⟨_, rfl⟩
      have hprog : ¬ Program u := by
        rintro ⟨_, _, s, h⟩; cases (huniq _ _ h).1
      have hrec : Recorded seg t.witness u ↔ u.amount ≠ 0 := by
        constructor
        · rintro ⟨_, ⟨h, _⟩ | ⟨s, h, _⟩⟩
          · exact h
          · cases (huniq _ _ h).1
        · intro h; exact ⟨hst', .inl ⟨h, redeem, .inr hop⟩⟩
      rw [hrec, ← hseg]
      cases hb : segwitBytesForSig H t lock t.vins[k] u.amount with
      | panic => exact absurd hb (SignPanic.segwit_ne_panic H t (by omega) _ _)
      | err => rw [hb] at hF; subst hF; exact ⟨iff_of_false (by simp) hprog, by simp⟩
      | ok b =>
        rw [hb] at hF
        simp only [Res.bind_ok] at hF
        obtain ⟨th, hth⟩ := hnew (H.hash .doubleSha256 (b ++ leBytes 4 0x41))
        rw [hth] at hF
        subst hF
        exact ⟨iff_of_false (by simp) hprog, by simp⟩
    | bech32 =>
      have hseg : (∃ b, segwitBytesForSig H t lock t.vins[k] u.amount = .ok b) ↔ u.amount ≠ 0 := by
        obtain ⟨_, _, h, h1, e⟩ := hop
        rw [hl] at e
        rw [Res.ok.inj e]
        exact segwit_program h1 _ _
      dsimp only at hF
      rw [hi, Res.bind_ok] at hF
      have hrec : ¬ Recorded seg t.witness u := by
        rintro ⟨_, ⟨_, s, h | h⟩ | ⟨s, h, _⟩⟩ <;> cases (huniq _ _ h).1
      have hprog : Program u ↔ u.amount ≠ 0 := ⟨fun h => h.2.1, fun h => ⟨hst', h, redeem, hop⟩⟩
      rw [hprog, ← hseg]
      cases hb : segwitBytesForSig H t lock t.vins[k] u.amount with
      | panic => exact absurd hb (SignPanic.segwit_ne_panic H t hck.len _ _)
      | err => rw [hb] at hF; subst hF; exact ⟨by simp, iff_of_false (by simp) hrec⟩
      | ok b =>
        rw [hb] at hF
        simp only [Res.bind_ok] at hF
        subst hF
        exact ⟨iff_of_true rfl ⟨_, rfl⟩, iff_of_false (by simp [newTxHashBch]) hrec⟩
    | multi =>
      have hprog : ¬ Program u := by
        rintro ⟨_, _, s, h⟩; cases (huniq _ _ h).1
      have hrec : Recorded seg t.witness u ↔ ReadsMultisig redeem ∧ (seg = true → u.amount ≠ 0) ∧ (seg = false → t.witness = false) := by
        constructor
        · rintro ⟨_, ⟨_, s, h | h⟩ | ⟨s, h, h2⟩⟩
          · cases (huniq _ _ h).1
          · cases (huniq _ _ h).1
          · obtain ⟨_, rfl⟩ := huniq _ _ h; exact h2
        · intro h; exact ⟨hst', .inr ⟨redeem, hop, h⟩⟩
      have hnew : ∀ d, newTxHashBch p H d lock redeem .multi u.sigType P ≠ .panic ∧
          ((∃ th, newTxHashBch p H d lock redeem .multi u.sigType P = .ok th) ↔ ReadsMultisig redeem) := by
        intro d
        rw [← details_iff]
        unfold newTxHashBch
        dsimp only
        cases hg : getMultiDetails redeem with
        | panic => exact absurd hg (SignPanic.details_ne_panic _)
        | err => simp
        | ok x => simp
      dsimp only at hF
      rw [hrec]
      have fin : ∀ (body : Res Bytes), body ≠ .panic → F = ((body >>= fun b => Res.ok (b ++ leBytes 4 0x41)) >>= fun b =>
          newTxHashBch p H (H.hash .doubleSha256 b) lock redeem .multi u.sigType P) →
          (F = .panic ↔ Program u) ∧ ((∃ h, F = .ok h) ↔ ReadsMultisig redeem ∧ ∃ b, body = .ok b) := by
        intro body hb hF
        cases body with
        | panic => exact absurd rfl hb
        | err => subst hF; exact ⟨iff_of_false (by simp) hprog, by simp⟩
        | ok b =>
          simp only [Res.bind_ok] at hF
          obtain ⟨n1, n2⟩ := hnew (H.hash .doubleSha256 (b ++ leBytes 4 0x41))
          rw [← hF] at n1 n2
          exact ⟨iff_of_false n1 hprog, by rw [n2]; simp⟩
      cases seg with
      | true =>
        rw [if_pos rfl, hi, Res.bind_ok] at hF
        obtain ⟨f1, f2⟩ := fin _ (SignPanic.segwit_ne_panic H t (by have := hck.multi rfl; omega) _ _) hF
        refine ⟨f1, f2.trans ?_⟩
        simp only [true_implies, Bool.true_eq_false, false_implies, and_true]
        refine and_congr_right fun hm => ?_
        obtain ⟨m, keys, tail, h1, h2, _, _, _, e⟩ := hm
        refine segwit_lock ⟨_, _, e, ?_⟩ _ _
        intro hz
        have := congrArg UInt8.toNat hz
        rw [UInt8.toNat_ofNat'] at this
        simp only [UInt8.toNat_zero] at this
        omega
      | false =>
        rw [if_neg (by simp)] at hF
        obtain ⟨f1, f2⟩ := fin _ (SignPanic.encode_ne_panic _ _) hF
        refine ⟨f1, f2.trans ?_⟩
        simp only [Bool.false_eq_true, false_implies, true_and, true_implies]
        refine and_congr_right fun _ => ?_
        have hsnd : Sound { t with vins := t.vins.modify k fun i => { i with scriptPub := redeem } } := by
          refine ⟨hs.version, hs.lockTime, ?_, hs.outs⟩
          intro i hi
          obtain ⟨j, hj, rfl⟩ := List.mem_iff_getElem.mp hi
          simp only [List.length_modify] at hj
          simp only [List.getElem_modify]
          split_ifs
          · exact hs.ins t.vins[j] (List.getElem_mem _)
          · exact hs.ins _ (List.getElem_mem _)
        refine encode_iff hsnd ?_ ?_
        · intro h
          have := congrArg List.length h
          simp at this
          rw [this] at hk; simp at hk
        · have hk' : k < (t.vins.modify k fun i => { i with scriptPub := redeem }).length := by simpa using hk
          refine ⟨_, List.getElem_mem hk', ?_⟩
          simp only [List.getElem_modify, if_pos]
          exact hempty _ (List.getElem_mem _)

/-- The transaction with its inputs emptied. -/
def emptied (t : Tx) : Tx := { t with vins := t.vins.map setEmpty }

theorem emptied_after (V : Variant) (seg : Bool) (t : Tx) (k : Nat) (u : TxUnlock) : emptied (afterSig V seg t k u) = emptied t := by
  have h1 : (setEmpty ∘ setEmpty) = setEmpty := by funext i; rfl
  have h2 : ∀ sc : Bytes, ((t.vins.map setEmpty).modify k (fun i => { i with scriptPub := sc })).map setEmpty = t.vins.map setEmpty := by
    intro sc
    apply List.ext_getElem
    · simp
    · intro j h1 h2
      simp only [List.getElem_map, List.getElem_modify]
      split_ifs <;> rfl
  unfold BtcVariants.afterSig emptied
  dsimp only
  split
  · split
    · rw [h2]
    · simp [h1]
  · simp [h1]

theorem loop_cases {V : Variant} (hV : V = bch ∨ V = bsv) (H : Hashes) (seg : Bool) (P : AddressPrefix) (t0 : Tx) (hs : Sound t0) : ∀ (us : List TxUnlock) (t : Tx) (idx : Nat),
    emptied t = t0 → idx + us.length ≤ t0.vins.length →
    (hashesLoop V H seg P t idx us = .panic ↔ FirstBad (Recorded seg t0.witness) Program us)
  | [], t, idx, _, _ => by
    refine iff_of_false (by simp [BtcVariants.hashesLoop]) ?_
    rintro ⟨b, x, a, h, _⟩; simp at h
  | u :: us, t, idx, he, hl => by
    rw [List.length_cons] at hl
    have ih := loop_cases hV H seg P t0 hs us (afterSig V seg t idx u) (idx + 1) (by rw [emptied_after, he]) (by omega)
    have hempty : ∀ i ∈ t0.vins, i.inType = .empty := by
      rw [← he]
      intro i hi
      simp only [emptied, List.mem_map] at hi
      obtain ⟨j, _, rfl⟩ := hi
      rfl
    have hstep : (hashForSig V H seg P t idx u = .panic ↔ Program u) ∧ ((∃ h, hashForSig V H seg P t idx u = .ok h) ↔ Recorded seg t0.witness u) := by
      rcases hV with rfl | rfl
      · refine step_cases bchAddress ?_ H seg P t0 hs idx (by omega) hempty u _ ?_
        · intro H P h hl
          obtain ⟨a, ha, _⟩ := C12_cashaddr_roundtrip_partial H h hl
          exact ⟨a, ha⟩
        · rw [← he]; rfl
      · refine step_cases bsvAddress ?_ H seg P t0 hs idx (by omega) hempty u _ ?_
        · intro H P h hl
          obtain ⟨a, ha, _⟩ := CheckMem.encodeCheck_total H P.p2pkh h
          exact ⟨a, ha⟩
        · rw [← he]; rfl
    obtain ⟨s1, s2⟩ := hstep
    rw [BtcVariants.hashesLoop, CombinePanic.firstBad_cons, ← s1, ← s2]
    cases hf : hashForSig V H seg P t idx u with
    | panic => simp
    | err => simp
    | ok h =>
      rw [Res.bind_ok, DecPanic.bind_panic _ _ (by intro a; simp), ih]
      simp

end ForkPanic
open ForkPanic

/-- C141, exactly, for the hashes of Bitcoin Cash and Bitcoin SV: `CreateRawTransactionHashForSig` panics if and only if segwit is on and the text is a cut transaction
of C23, or the text is a transaction with as many inputs as unlock data, and the first unlock data that gives no record is for a witness program, with hash type 0x41 and an amount. -/
theorem C141_hashes_fork_exact (V : Variant) (hV : V = bch ∨ V = bsv) (H : Hashes) (text : Bytes) (us : List TxUnlock) (segwitOn : Bool) (P : AddressPrefix) :
    createHashes V H text us segwitOn P = .panic ↔ ∃ b, HexText text b ∧ ((segwitOn = true ∧ CutWitness 1 b) ∨
      ∃ t, decodeTxV 1 (hexSpare b) segwitOn b = .ok t ∧ t.vins.length = us.length ∧ FirstBad (Recorded segwitOn t.witness) Program us) := by
  have hv : V.version = 1 := by rcases hV with rfl | rfl <;> rfl
  unfold BtcVariants.createHashes
  simp only [← Eip.decode_iff]
  cases hd : Hex.decode text with
  | err => simp
  | panic => exact absurd hd (Hex.decode_ne_panic _)
  | ok b =>
    simp only [Res.bind_ok, Res.ok.injEq, exists_eq_left', hv]
    rw [← C23_panic_hex_exact]
    cases ht : decodeTxV 1 (hexSpare b) segwitOn b with
    | err => simp
    | panic => simp
    | ok t =>
      simp only [Res.bind_ok, reduceCtorEq, false_or, Res.ok.injEq, exists_eq_left']
      obtain ⟨d1, _, d2, _⟩ := BtcParse.decodeTxV_inv ht
      unfold BtcVariants.hashesForSig
      by_cases hl : t.vins.length = us.length
      · rw [if_neg (by simpa using hl), if_neg d2.outs.1]
        simp only [hl, true_and]
        have hs : Sound (emptied t) := by
          refine ⟨d1, d2.lockTime, ?_, d2.outs.1, fun o ho => ⟨(d2.outs.2.2 o ho).1, (d2.outs.2.2 o ho).2.1⟩⟩
          intro i hi
          simp only [emptied, List.mem_map] at hi
          obtain ⟨j, hj, rfl⟩ := hi
          have := d2.ins.2.2 j hj
          exact ⟨this.txid, this.vout, this.sequence⟩
        exact loop_cases hV H segwitOn P (emptied t) hs us t 0 rfl (by simp [emptied, hl])
      · rw [if_pos hl]; simp [hl]

/-- Two inputs; unlock data for a key hash and for a witness program. -/
def twoForkIns : Bytes := leBytes 4 1 ++ [2] ++ (List.replicate 36 7 ++ [0] ++ List.replicate 4 0xff) ++ (List.replicate 36 8 ++ [0] ++ List.replicate 4 0xff) ++ [1] ++ List.replicate 8 1 ++ [1, 0x51] ++ leBytes 4 0
def forkKey : TxUnlock := ⟨Hex.encode (p2pkhScript (List.replicate 20 5)), [], 7, 0x41⟩
def forkProgram : TxUnlock := ⟨Hex.encode (witnessV0Script (List.replicate 20 5)), [], 7, 0x41⟩

/-- With the program in the second place the call panics; with something of no known kind before it, it does not. -/
example (V : Variant) (hV : V = bch ∨ V = bsv) (H : Hashes) (segwitOn : Bool) (P : AddressPrefix) :
    createHashes V H (Hex.encode twoForkIns) [forkKey, forkProgram] segwitOn P = .panic ∧
    createHashes V H (Hex.encode twoForkIns) [⟨[0x30, 0x30], [], 7, 0x41⟩, forkProgram] segwitOn P = .err := by
  have hd : ∃ t, decodeTxV 1 (hexSpare twoForkIns) segwitOn twoForkIns = .ok t ∧ t.vins.length = 2 := by
    have h : (match decodeTxV 1 (hexSpare twoForkIns) segwitOn twoForkIns with
      | .ok t => decide (t.vins.length = 2)
      | _ => false) = true := by cases segwitOn <;> decide +kernel
    cases ht : decodeTxV 1 (hexSpare twoForkIns) segwitOn twoForkIns with
    | err => rw [ht] at h; cases h
    | panic => rw [ht] at h; cases h
    | ok t => rw [ht] at h; exact ⟨t, rfl, by simpa using h⟩
  obtain ⟨t, h1, h2⟩ := hd
  constructor
  · refine (C141_hashes_fork_exact V hV H _ _ segwitOn P).mpr ⟨twoForkIns, (Eip.decode_iff _ _).mp (Hex.decode_encode _), .inr ⟨t, h1, h2, ?_⟩⟩
    refine ⟨[forkKey], forkProgram, [], rfl, ?_, rfl, by decide, [], rfl, rfl, List.replicate 20 5, by simp, by unfold forkProgram; rw [Hex.decode_encode]⟩
    intro u hu
    simp only [List.mem_cons, List.not_mem_nil, or_false] at hu
    subst hu
    exact ⟨rfl, .inl ⟨by decide, [], .inl ⟨rfl, List.replicate 20 5, [], by simp, .inl rfl, by unfold forkKey; rw [Hex.decode_encode, List.append_nil], .inl rfl⟩⟩⟩
  · have hv : V.version = 1 := by rcases hV with rfl | rfl <;> rfl
    have hc : V.check [0x30, 0x30] [] = .err := by rcases hV with rfl | rfl <;> decide +kernel
    unfold BtcVariants.createHashes BtcVariants.hashesForSig
    rw [Hex.decode_encode, Res.bind_ok, hv, h1, Res.bind_ok, if_neg (by simp [h2])]
    split_ifs
    · rfl
    · rw [BtcVariants.hashesLoop, BtcVariants.hashForSig]
      simp only [hc]
      rfl

end Verif
