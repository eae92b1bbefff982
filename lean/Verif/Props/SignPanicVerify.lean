import Verif.Props.SignPanic
import Verif.Props.BtcRecord
import Verif.Props.BtcSpendVerify

/-! C141 for verifying: `VerifyRawTransaction` of the Bitcoin, CXC and HyperCash packages, and when it panics. -/

namespace Verif
open Verif.Btc Verif.BtcVariants
open Verif.Spec Verif.Spec.Cut Verif.Spec.Eip55

namespace SignPanic
open CreatePanic

theorem index_ne_panic {α : Type} {l : List α} {i : Nat} (h : i < l.length) : index l i ≠ .panic := by
  rw [index_ok h]; simp

theorem at_ne_panic {mem : Bytes} {limit : Nat} (h : limit ≤ mem.length) (i : Nat) : at' mem limit i ≠ .panic := by
  unfold at'
  split_ifs with c
  · simp
  · exact index_ne_panic (by omega)

theorem readInt_ne_panic {mem : Bytes} {limit : Nat} (h : limit ≤ mem.length) (i : Nat) : readInt mem limit i ≠ .panic := by
  unfold readInt
  refine bind_ne_panic (at_ne_panic h _) fun n _ => ?_
  by_cases c1 : n > 0x21
  · rw [if_pos c1]; simp
  rw [if_neg c1]
  have fin : ∀ bad : Bool, (if bad then .err
      else if i + 1 + n.toNat > limit then .err
      else do
        let d ← slice mem (i + 1) (i + 1 + n.toNat)
        (.ok (n, d) : Res (UInt8 × Bytes))) ≠ .panic := by
    intro bad
    split_ifs with c2 c3
    · simp
    · simp
    · rw [slice_ok (by omega) (by omega)]; simp
  dsimp only
  by_cases c2 : n = 0x21
  · rw [if_pos c2]
    refine bind_ne_panic ?_ fun b _ => fin b
    split_ifs with c3
    · simp
    · refine bind_ne_panic (index_ne_panic (by omega)) fun _ _ => bind_ne_panic (index_ne_panic (by omega)) (by simp)
  · rw [if_neg c2, Res.bind_ok]
    exact fin false

theorem intBody_length {d : Bytes} (h : d.length ≤ 33) : (intBody d).length = 32 := by
  unfold intBody
  split_ifs with c
  · simp [c]
  · simp; omega

theorem readInt_length {mem : Bytes} {limit i : Nat} {n : UInt8} {d : Bytes} (h : readInt mem limit i = .ok (n, d)) : d.length ≤ 33 := by
  unfold readInt at h
  obtain ⟨m, _, h⟩ := Res.bind_eq_ok.mp h
  by_cases c1 : m > 0x21
  · rw [if_pos c1] at h; cases h
  rw [if_neg c1] at h
  have h' : ∃ bad : Bool, (if bad then .err
      else if i + 1 + m.toNat > limit then .err
      else do
        let d ← slice mem (i + 1) (i + 1 + m.toNat)
        (.ok (m, d) : Res (UInt8 × Bytes))) = .ok (n, d) := by
    dsimp only at h
    by_cases c2 : m = 0x21
    · rw [if_pos c2] at h
      obtain ⟨b, _, h⟩ := Res.bind_eq_ok.mp h
      exact ⟨b, h⟩
    · rw [if_neg c2] at h
      exact ⟨false, h⟩
  obtain ⟨bad, h⟩ := h'
  split_ifs at h
  obtain ⟨x, hx, h⟩ := Res.bind_eq_ok.mp h
  cases h
  have h2 : d.length ≤ n.toNat := by
    unfold slice at hx
    split_ifs at hx
    cases hx
    simp; omega
  have h3 : n.toNat ≤ 33 := by
    have : n ≤ 0x21 := UInt8.not_lt.mp c1
    rw [UInt8.le_iff_toNat_le] at this
    simpa using this
  omega

theorem readSig_ne_panic {mem : Bytes} {limit : Nat} (h : limit ≤ mem.length) : readSig mem limit ≠ .panic := by
  unfold readSig
  refine bind_ne_panic (at_ne_panic h _) fun _ _ => ?_
  split_ifs
  · simp
  refine bind_ne_panic (at_ne_panic h _) fun _ _ => bind_ne_panic (at_ne_panic h _) fun _ _ => ?_
  split_ifs
  · simp
  refine bind_ne_panic (readInt_ne_panic h _) fun ⟨_, _⟩ _ => ?_
  dsimp only
  refine bind_ne_panic (at_ne_panic h _) fun x _ => ?_
  by_cases c : x ≠ 0x02
  · rw [if_pos c]; simp
  rw [if_neg c]
  exact bind_ne_panic (readInt_ne_panic h _) fun ⟨_, _⟩ _ => (by simp)

theorem readSig_length {mem : Bytes} {limit : Nat} {a b c : UInt8} {sig m : Bytes} {i : Nat} (h : readSig mem limit = .ok (a, b, c, sig, m, i)) : m.length = mem.length := by
  unfold readSig at h
  obtain ⟨_, _, h⟩ := Res.bind_eq_ok.mp h
  split_ifs at h
  obtain ⟨_, _, h⟩ := Res.bind_eq_ok.mp h
  obtain ⟨_, _, h⟩ := Res.bind_eq_ok.mp h
  split_ifs at h
  obtain ⟨⟨x, r⟩, _, h⟩ := Res.bind_eq_ok.mp h
  dsimp only at h
  obtain ⟨z, _, h⟩ := Res.bind_eq_ok.mp h
  by_cases c : z ≠ 0x02
  · rw [if_pos c] at h; cases h
  rw [if_neg c] at h
  obtain ⟨⟨y, s⟩, hs, h⟩ := Res.bind_eq_ok.mp h
  simp only [Res.ok.injEq, Prod.mk.injEq] at h
  obtain ⟨_, _, _, _, rfl, _⟩ := h
  split_ifs with c
  · rfl
  · have := intBody_length (readInt_length hs)
    unfold overwrite
    simp only [List.length_append, List.length_take, List.length_drop, this]
    omega

theorem sigPub_ne_panic (script : Bytes) : decodeSigPub script ≠ .panic := by
  unfold decodeSigPub
  dsimp only
  split_ifs with c
  · simp
  refine bind_ne_panic (index_ne_panic (by omega)) fun _ _ => ?_
  refine bind_ne_panic (readSig_ne_panic le_rfl) fun ⟨_, _, _, _, m, i⟩ hr => ?_
  have hl := readSig_length hr
  dsimp only
  refine bind_ne_panic (at_ne_panic (by omega) _) fun _ _ => bind_ne_panic (at_ne_panic (by omega) _) fun _ _ => ?_
  rename_i pubLen _
  by_cases c1 : pubLen ≠ 0x21
  · rw [if_pos c1]; simp
  rw [if_neg c1]
  by_cases c2 : i + 2 + 33 > script.length
  · rw [if_pos c2]; simp
  rw [if_neg c2, slice_ok (by omega) (by omega), Res.bind_ok]
  split_ifs <;> simp

/-! ### the records -/

/-- The record of an input spent with one key. -/
structure Single (h : TxHash) : Prop where
  req : h.nRequired = 0
  place : h.normal ≠ none
  multi : h.multi = []

/-- The record of a multisig input. -/
structure Several (h : TxHash) : Prop where
  req : h.nRequired ≠ 0
  place : h.normal = none
  enough : h.nRequired.toNat ≤ h.multi.length

theorem record_kind {H : Hashes} {hash lock redeem : Bytes} {ty : InType} {st : UInt8} {P : AddressPrefix} {h : TxHash}
    (hh : Btc.newTxHash H hash lock redeem ty st P = .ok h) : (ty ≠ .multi → Single h) ∧ (ty = .multi → Several h) := by
  unfold Btc.newTxHash at hh
  cases ty with
  | p2pkh =>
    dsimp only at hh
    obtain ⟨_, _, hh⟩ := Res.bind_eq_ok.mp hh
    obtain ⟨_, _, hh⟩ := Res.bind_eq_ok.mp hh
    cases hh
    exact ⟨fun _ => ⟨rfl, by simp, rfl⟩, by simp⟩
  | p2wpkh =>
    dsimp only at hh
    obtain ⟨_, _, hh⟩ := Res.bind_eq_ok.mp hh
    obtain ⟨_, _, hh⟩ := Res.bind_eq_ok.mp hh
    cases hh
    exact ⟨fun _ => ⟨rfl, by simp, rfl⟩, by simp⟩
  | bech32 =>
    dsimp only at hh
    obtain ⟨_, _, hh⟩ := Res.bind_eq_ok.mp hh
    obtain ⟨_, _, hh⟩ := Res.bind_eq_ok.mp hh
    cases hh
    exact ⟨fun _ => ⟨rfl, by simp, rfl⟩, by simp⟩
  | multi =>
    dsimp only at hh
    obtain ⟨⟨n, ks⟩, hd, hh⟩ := Res.bind_eq_ok.mp hh
    cases hh
    obtain ⟨h1, h2, h3, _⟩ := BtcRec.details_parts hd
    refine ⟨by simp, fun _ => ⟨?_, rfl, by simpa using h3⟩⟩
    intro h0
    dsimp only at h0
    rw [h0] at h1
    simp at h1
  | empty => cases hh

theorem loop_single {V : Variant} (hV : V = cxc ∨ V = hc) (H : Hashes) (seg : Bool) (P : AddressPrefix) : ∀ (us : List TxUnlock) (t : Tx) (idx : Nat) (hs : List TxHash),
    (∀ u ∈ us, ∀ lock redeem ty, V.check u.lockScript u.redeemScript = .ok (lock, redeem, ty) → ty ≠ .multi) →
    BtcVariants.hashesLoop V H seg P t idx us = .ok hs → hs.length = us.length ∧ ∀ h ∈ hs, Single h
  | [], _, _, hs, _, h => by simp [BtcVariants.hashesLoop] at h; subst h; simp
  | u :: us, t, idx, hs, hm, h => by
    rw [BtcVariants.hashesLoop] at h
    obtain ⟨x, hx, h⟩ := Res.bind_eq_ok.mp h
    obtain ⟨xs, hxs, h⟩ := Res.bind_eq_ok.mp h
    cases h
    obtain ⟨h1, h2⟩ := loop_single hV H seg P us _ _ xs (fun u hu => hm u (by simp [hu])) hxs
    refine ⟨by simp [h1], fun y hy => ?_⟩
    rcases List.mem_cons.mp hy with rfl | hy
    · unfold BtcVariants.hashForSig at hx
      obtain ⟨⟨lock, redeem, ty⟩, hc, hx⟩ := Res.bind_eq_ok.mp hx
      dsimp only at hx
      obtain ⟨b, hb, hx⟩ := Res.bind_eq_ok.mp hx
      have hty := hm u (by simp) _ _ _ hc
      rcases hV with rfl | rfl
      · exact (record_kind hx).1 hty
      · exact (record_kind hx).1 hty
    · exact h2 y hy

theorem attach_single {i : TxIn} (hi : i.inType ≠ .multi) {h : TxHash} (hs : Single h) : attach i h ≠ .panic ∧ ∀ h', attach i h = .ok (some h') → Single h' := by
  unfold attach
  obtain ⟨n, hn⟩ := Option.ne_none_iff_exists'.mp hs.place
  have key : ∀ x : Res (Bytes × Bytes × UInt8), x ≠ .panic → (match x with
      | .ok (sig, pub, st) =>
        match h.normal with
        | none => Res.panic
        | some n => Res.ok (some { h with normal := some { n with sigType := st, sigPub := ⟨some sig, some pub⟩ } })
      | .err => Res.ok none
      | .panic => (Res.panic : Res (Option TxHash))) ≠ .panic ∧ ∀ h', (match x with
      | .ok (sig, pub, st) =>
        match h.normal with
        | none => Res.panic
        | some n => Res.ok (some { h with normal := some { n with sigType := st, sigPub := ⟨some sig, some pub⟩ } })
      | .err => Res.ok none
      | .panic => (Res.panic : Res (Option TxHash))) = .ok (some h') → Single h' := by
    intro x hx
    rw [hn]
    cases x with
    | panic => exact absurd rfl hx
    | err => exact ⟨by simp, by simp⟩
    | ok y =>
      refine ⟨by simp, fun h' hh => ?_⟩
      cases hh
      exact ⟨hs.req, by simp, hs.multi⟩
  cases hty : i.inType with
  | p2pkh => exact key _ (sigPub_ne_panic _)
  | p2wpkh => exact key _ (sigPub_ne_panic _)
  | bech32 => exact key _ (sigPub_ne_panic _)
  | multi => exact absurd hty hi
  | empty =>
    refine ⟨by simp, fun h' hh => ?_⟩
    cases hh
    exact hs

theorem attachAll_single : ∀ (is : List TxIn) (hs : List TxHash), is.length = hs.length → (∀ i ∈ is, i.inType ≠ .multi) → (∀ h ∈ hs, Single h) →
    attachAll is hs ≠ .panic ∧ ∀ hs', attachAll is hs = .ok (some hs') → ∀ h ∈ hs', Single h
  | [], _, _, _, _ => by simp [attachAll]
  | _ :: _, [], h, _, _ => by simp at h
  | i :: is, h :: hs, hl, hi, hh => by
    obtain ⟨a1, a2⟩ := attach_single (hi i (by simp)) (hh h (by simp))
    obtain ⟨b1, b2⟩ := attachAll_single is hs (by simpa using hl) (fun i hi' => hi i (by simp [hi'])) (fun h hh' => hh h (by simp [hh']))
    rw [attachAll]
    constructor
    · refine bind_ne_panic a1 fun x hx => ?_
      cases x with
      | none => simp
      | some x =>
        refine bind_ne_panic b1 fun y hy => ?_
        cases y <;> simp
    · intro hs' he
      obtain ⟨x, hx, he⟩ := Res.bind_eq_ok.mp he
      cases x with
      | none => cases he
      | some x =>
        obtain ⟨y, hy, he⟩ := Res.bind_eq_ok.mp he
        cases y with
        | none => cases he
        | some y =>
          cases he
          intro z hz
          rcases List.mem_cons.mp hz with rfl | hz
          · exact a2 _ hx
          · exact b2 _ hy z hz

theorem point_ne_panic {C : Curve} (hC : ∀ k, C.decompress k ≠ []) (pub : Option Bytes) : pubPoint C pub ≠ .panic := by
  unfold pubPoint
  have := List.length_pos_iff.mpr (hC (pub.getD []))
  dsimp only
  rw [slice_ok (by omega) (by omega)]
  simp

theorem verifyAll_single {C : Curve} (hC : ∀ k, C.decompress k ≠ []) : ∀ hs : List TxHash, (∀ h ∈ hs, Single h) → verifyAll C hs ≠ .panic
  | [], _ => by simp [verifyAll]
  | h :: hs, hh => by
    have h1 := hh h (by simp)
    obtain ⟨n, hn⟩ := Option.ne_none_iff_exists'.mp h1.place
    rw [verifyAll]
    refine bind_ne_panic ?_ fun b _ => ?_
    · unfold verifyOne
      dsimp only
      rw [if_pos h1.req, hn]
      exact bind_ne_panic (point_ne_panic hC _) (by simp)
    · split_ifs
      · exact verifyAll_single hC hs fun h hh' => hh h (by simp [hh'])
      · simp

theorem verify_panics {V : Variant} (hV : V = cxc ∨ V = hc) (H : Hashes) (C : Curve) (hC : ∀ k, C.decompress k ≠ []) (text : Bytes) (us : List TxUnlock) (seg : Bool) (P : AddressPrefix)
    (hus : ∀ u ∈ us, ∀ lock redeem ty, V.check u.lockScript u.redeemScript = .ok (lock, redeem, ty) → ty ≠ .multi)
    (hin : ∀ b t, HexText text b → decodeTxV V.version (hexSpare b) seg b = .ok t → ∀ i ∈ t.vins, i.inType ≠ .multi) :
    BtcVariants.verifyRaw V H C text us seg P = .panic ↔ seg = true ∧ ∃ b, HexText text b ∧ CutWitness V.version b := by
  unfold BtcVariants.verifyRaw
  constructor
  · intro h
    cases hb : Hex.decode text with
    | err => rw [hb] at h; cases h
    | panic => exact absurd hb (Hex.decode_ne_panic _)
    | ok b =>
      have hbt := (Eip.decode_iff _ _).mp hb
      rw [hb] at h
      dsimp only at h
      cases ht : decodeTxV V.version (hexSpare b) seg b with
      | err => rw [ht] at h; cases h
      | panic =>
        obtain ⟨h1, h2⟩ := (C23_panic_hex_exact V.version seg b).mp ht
        exact ⟨h1, b, hbt, h2⟩
      | ok t =>
        exfalso
        rw [ht] at h
        dsimp only at h
        by_cases c1 : t.vins.length ≠ us.length
        · rw [if_pos c1] at h; cases h
        rw [if_neg c1] at h
        simp only [ne_eq, not_not] at c1
        cases hh : BtcVariants.hashesForSig V H seg P (cloneEmpty t) us with
        | err => rw [hh] at h; cases h
        | panic =>
          unfold BtcVariants.hashesForSig at hh
          split_ifs at hh with d1 d2
          obtain ⟨t', k, u, _, hk, hp⟩ := loop_panics V H seg P us _ 0 hh (by simp [cloneEmpty, c1])
          exact step_ne_panic hV H seg P t' k hk u hp
        | ok hs =>
          rw [hh] at h
          dsimp only at h
          have hs' : hs.length = us.length ∧ ∀ h ∈ hs, Single h := by
            unfold BtcVariants.hashesForSig at hh
            split_ifs at hh
            exact loop_single hV H seg P us _ _ _ hus hh
          obtain ⟨a1, a2⟩ := attachAll_single t.vins hs (by omega) (hin b t hbt ht) hs'.2
          rcases Res.bind_eq_panic.mp h with h | ⟨x, hx, h⟩
          · exact a1 h
          · cases x with
            | none => cases h
            | some x => exact verifyAll_single hC x (a2 x hx) h
  · rintro ⟨rfl, b, hb, hc⟩
    rw [(Eip.decode_iff _ _).mpr hb]
    dsimp only
    rw [(C23_panic_hex_exact V.version true b).mpr ⟨rfl, hc⟩]

theorem not_multi_btc {l r lock redeem : Bytes} {ty : InType} (hr : r.length < 74) (h : Btc.checkScriptType l r = .ok (lock, redeem, ty)) : ty ≠ .multi := by
  rintro rfl
  have h2 := (check_btc h).multi rfl
  have : redeem.length ≤ r.length / 2 := by
    unfold Btc.checkScriptType at h
    cases hl : Hex.decode l with
    | err => rw [hl] at h; cases h
    | panic => rw [hl] at h; cases h
    | ok s =>
      rw [hl] at h
      dsimp only at h
      split_ifs at h with c1 c2 c3 c4
      · cases h
      · cases hx : Hex.decode r with
        | err => rw [hx] at h; cases h
        | panic => rw [hx] at h; cases h
        | ok x =>
          have := ((Eip.decode_iff _ _).mp hx).1
          rw [hx] at h
          dsimp only at h
          split_ifs at h <;> cases h
          omega
      · cases h
  omega

theorem not_multi_cxc {l r lock redeem : Bytes} {ty : InType} (hr : r.length < 74) (h : checkCxc l r = .ok (lock, redeem, ty)) : ty ≠ .multi := by
  rintro rfl
  have h2 := (check_cxc h).multi rfl
  have : redeem.length ≤ r.length / 2 := by
    unfold checkCxc at h
    cases hl : Hex.decode l with
    | err => rw [hl] at h; cases h
    | panic => rw [hl] at h; cases h
    | ok s =>
      rw [hl] at h
      dsimp only at h
      split_ifs at h with c1 c2 c3 c4
      · cases h
      · cases hx : Hex.decode r with
        | err => rw [hx] at h; cases h
        | panic => rw [hx] at h; cases h
        | ok x =>
          have := ((Eip.decode_iff _ _).mp hx).1
          rw [hx] at h
          dsimp only at h
          split_ifs at h <;> cases h
          omega
      · cases h
  omega

/-! ### the wrong unlocking data -/

theorem encodeTx_script {seg : Bool} {t : Tx} {i : TxIn} {a b x : Bytes} (hw : t.witness = false)
    (h : encodeTx seg { t with vins := [{ i with scriptPub := a }] } = .ok x) : ∃ y, encodeTx seg { t with vins := [{ i with scriptPub := b }] } = .ok y := by
  unfold encodeTx at h ⊢
  rw [hw] at h ⊢
  by_cases c : t.vouts = [] ∨ t.version.length ≠ 4 ∨ t.lockTime.length ≠ 4
  · rw [if_pos (Or.inr c)] at h; cases h
  rw [if_neg (by simpa using c)] at h ⊢
  dsimp only at h ⊢
  simp only [Bool.false_eq_true, if_false, concatAll, encodeIn] at h ⊢
  obtain ⟨p, hp, h⟩ := Res.bind_eq_ok.mp h
  obtain ⟨q, hq, h⟩ := Res.bind_eq_ok.mp h
  obtain ⟨p', hp', hp⟩ := Res.bind_eq_ok.mp hp
  split_ifs at hp' with d
  rw [if_neg (by simpa using d)]
  simp only [Res.bind_ok]
  rw [hq]
  exact ⟨_, rfl⟩

/-- What a successful verification of a transaction with one input tells. -/
theorem verify_one {H : Hashes} {C : Curve} {text : Bytes} {u : TxUnlock} {seg : Bool} {P : AddressPrefix} (h : Btc.verifyRaw H C text [u] seg P = .ok true) :
    ∃ b t i lock redeem ty m r r', Hex.decode text = .ok b ∧ decodeTx (hexSpare b) seg b = .ok t ∧ t.vins = [i] ∧ t.vouts ≠ [] ∧
      checkScriptType u.lockScript u.redeemScript = .ok (lock, redeem, ty) ∧
      Btc.bytesForSig H seg { t with witness := false, vins := [setEmpty (setEmpty i)] } lock redeem ty u.sigType 0 u.amount = .ok m ∧
      Btc.newTxHash H (H.hash .doubleSha256 m) lock redeem ty u.sigType P = .ok r ∧ attach i r = .ok (some r') ∧ verifyOne C r' = .ok true := by
  unfold Btc.verifyRaw at h
  cases hb : Hex.decode text with
  | err => rw [hb] at h; cases h
  | panic => rw [hb] at h; cases h
  | ok b =>
    rw [hb] at h
    dsimp only at h
    cases ht : decodeTx (hexSpare b) seg b with
    | err => rw [ht] at h; cases h
    | panic => rw [ht] at h; cases h
    | ok t =>
      rw [ht] at h
      dsimp only at h
      by_cases c1 : t.vins.length ≠ [u].length
      · rw [if_pos c1] at h; cases h
      rw [if_neg c1] at h
      simp only [List.length_singleton, ne_eq, not_not] at c1
      obtain ⟨i, hi⟩ := List.length_eq_one_iff.mp c1
      cases hh : Btc.hashesForSig H seg P (cloneEmpty t) [u] with
      | err => rw [hh] at h; cases h
      | panic => rw [hh] at h; cases h
      | ok hs =>
        rw [hh] at h
        dsimp only at h
        unfold Btc.hashesForSig at hh
        split_ifs at hh with d1 d2
        rw [Btc.hashesLoop, Btc.hashesLoop] at hh
        obtain ⟨r, hr, hh⟩ := Res.bind_eq_ok.mp hh
        cases hh
        unfold Btc.hashForSig at hr
        obtain ⟨⟨lock, redeem, ty⟩, hc, hr⟩ := Res.bind_eq_ok.mp hr
        dsimp only at hr
        obtain ⟨m, hm, hr⟩ := Res.bind_eq_ok.mp hr
        rw [hi] at h
        simp only [attachAll] at h
        obtain ⟨x, hx, h⟩ := Res.bind_eq_ok.mp h
        obtain ⟨y, hy, hx⟩ := Res.bind_eq_ok.mp hx
        cases y with
        | none => cases hx; cases h
        | some r' =>
          simp only [Res.bind_ok] at hx
          cases hx
          simp only [verifyAll] at h
          obtain ⟨v, hv, h⟩ := Res.bind_eq_ok.mp h
          cases v with
          | false => simp at h
          | true =>
            have e : ({ cloneEmpty t with vins := (cloneEmpty t).vins.map setEmpty } : Tx) = { t with witness := false, vins := [setEmpty (setEmpty i)] } := by
              simp [cloneEmpty, hi]
            refine ⟨b, t, i, lock, redeem, ty, m, r, r', rfl, ht, hi, ?_, hc, ?_, hr, hy, hv⟩
            · simpa [cloneEmpty] using d2
            · rw [← e]; exact hm

theorem verify_two {H : Hashes} {C : Curve} {text : Bytes} {u : TxUnlock} {seg : Bool} {P : AddressPrefix} {b : Bytes} {t : Tx} {i : TxIn} {lock redeem : Bytes} {ty : InType} {m : Bytes}
    {r : TxHash} (hb : Hex.decode text = .ok b) (ht : decodeTx (hexSpare b) seg b = .ok t) (hi : t.vins = [i]) (ho : t.vouts ≠ [])
    (hc : checkScriptType u.lockScript u.redeemScript = .ok (lock, redeem, ty))
    (hm : Btc.bytesForSig H seg { t with witness := false, vins := [setEmpty (setEmpty i)] } lock redeem ty u.sigType 0 u.amount = .ok m)
    (hr : Btc.newTxHash H (H.hash .doubleSha256 m) lock redeem ty u.sigType P = .ok r) (ha : attach i r = .panic) :
    Btc.verifyRaw H C text [u] seg P = .panic := by
  unfold Btc.verifyRaw
  rw [hb]
  dsimp only
  rw [ht]
  dsimp only
  have e : ({ cloneEmpty t with vins := (cloneEmpty t).vins.map setEmpty } : Tx) = { t with witness := false, vins := [setEmpty (setEmpty i)] } := by
    simp [cloneEmpty, hi]
  have h1 : Btc.hashesForSig H seg P (cloneEmpty t) [u] = .ok [r] := by
    unfold Btc.hashesForSig
    rw [if_neg (by simp [cloneEmpty, hi]), if_neg (by simpa [cloneEmpty] using ho), Btc.hashesLoop, Btc.hashesLoop]
    unfold Btc.hashForSig
    rw [hc]
    simp only [Res.bind_ok]
    rw [e, hm]
    simp only [Res.bind_ok]
    rw [hr]
    rfl
  rw [if_neg (by simp [hi]), h1, hi]
  dsimp only
  rw [attachAll, ha]
  rfl

theorem script_code {r : Bytes} {x : UInt8} {tl : Bytes} (h : r = x :: tl) (hx : x ≠ 0) : scriptCode r = .ok r := by
  subst h
  unfold scriptCode
  rw [index_ok (by simp)]
  simp [hx]

/-- Without a signature nothing is counted. -/
theorem no_count {C : Curve} (hC : ∀ p msg, C.verify p msg [] = false) (th : Bytes) : ∀ (ms : List MultiTx) (b : Bool), tryKeys C th none ms = .ok b → b = false
  | [], b, h => by simp [tryKeys] at h; exact h
  | m :: ms, b, h => by
    rw [tryKeys] at h
    obtain ⟨p, hp, h⟩ := Res.bind_eq_ok.mp h
    simp only [Option.getD_none, hC, Bool.false_eq_true, if_false] at h
    exact no_count hC th ms b h

theorem no_counts {C : Curve} (hC : ∀ p msg, C.verify p msg [] = false) (th : Bytes) (multi : List MultiTx) (hm : ∀ m ∈ multi, m.sigPub.signature = none) :
    ∀ (is : List Nat) (c d : Nat), countValid C th multi is c = .ok d → d = c
  | [], c, d, h => by simp [countValid] at h; exact h.symm
  | i :: is, c, d, h => by
    rw [countValid] at h
    split_ifs at h with c1
    · exact no_counts hC th multi hm is c d h
    · obtain ⟨m, hi, h⟩ := Res.bind_eq_ok.mp h
      obtain ⟨ok, ho, h⟩ := Res.bind_eq_ok.mp h
      have : m ∈ multi := by
        unfold index at hi
        cases hx : multi[i]? with
        | none => rw [hx] at hi; cases hi
        | some y => rw [hx] at hi; cases hi; exact List.mem_of_getElem? hx
      rw [hm m this] at ho
      rw [no_count hC th _ ok ho] at h
      exact no_counts hC th multi hm is c d h

theorem p2pkh_record {H : Hashes} {hash lock redeem : Bytes} {st : UInt8} {P : AddressPrefix} {r : TxHash}
    (hh : Btc.newTxHash H hash lock redeem .p2pkh st P = .ok r) : ∃ a, r = ⟨Hex.encode hash, 0, some ⟨a, st, ⟨none, none⟩⟩, []⟩ := by
  unfold Btc.newTxHash at hh
  dsimp only at hh
  obtain ⟨_, _, hh⟩ := Res.bind_eq_ok.mp hh
  obtain ⟨a, _, hh⟩ := Res.bind_eq_ok.mp hh
  cases hh
  exact ⟨a, rfl⟩

theorem multi_record {H : Hashes} {hash lock redeem : Bytes} {st : UInt8} {P : AddressPrefix} {r : TxHash}
    (hh : Btc.newTxHash H hash lock redeem .multi st P = .ok r) : ∀ m ∈ r.multi, m.sigPub.signature = none := by
  unfold Btc.newTxHash at hh
  dsimp only at hh
  obtain ⟨⟨n, ks⟩, _, hh⟩ := Res.bind_eq_ok.mp hh
  cases hh
  intro m hm
  obtain ⟨k, _, rfl⟩ := List.mem_map.mp hm
  rfl

/-- An input that reads as signed with one key cannot be attached to the record of a multisig input. -/
theorem attach_key {i : TxIn} (hi : i.inType = .p2pkh ∨ i.inType = .p2wpkh ∨ i.inType = .bech32) {r r' : TxHash} (h : attach i r = .ok (some r')) {r2 : TxHash} (hn : r2.normal = none) :
    attach i r2 = .panic := by
  unfold attach at h ⊢
  rcases hi with hi | hi | hi <;> rw [hi] at h ⊢ <;> dsimp only at h ⊢ <;> (cases hd : decodeSigPub i.scriptSig with
    | err => rw [hd] at h; cases h
    | panic => rfl
    | ok x => dsimp only; rw [hn])

end SignPanic

open SignPanic

/-- C141 for verifying transactions without multisig inputs (Bitcoin, CXC, HyperCash): if no redeem script given is long enough for a multisig script, no input of the transaction reads as a
multisig input, and decompressing a key always returns something, then `VerifyRawTransaction` panics exactly on the cut transactions of C23 with segwit on.
Missing: multisig inputs, for which it panics (below). -/
theorem C141_verify_partial (H : Hashes) (C : Curve) (hC : ∀ k, C.decompress k ≠ []) (text : Bytes) (us : List TxUnlock) (segwitOn : Bool) (P : AddressPrefix)
    (hus : ∀ u ∈ us, u.redeemScript.length < 74)
    (hin : ∀ v ∈ [1, 2], ∀ b t, HexText text b → decodeTxV v (hexSpare b) segwitOn b = .ok t → ∀ i ∈ t.vins, i.inType ≠ .multi) :
    (Btc.verifyRaw H C text us segwitOn P = .panic ↔ segwitOn = true ∧ ∃ b, HexText text b ∧ CutWitness 2 b) ∧
    (BtcVariants.verifyRaw cxc H C text us segwitOn P = .panic ↔ segwitOn = true ∧ ∃ b, HexText text b ∧ CutWitness 1 b) ∧
    (BtcVariants.verifyRaw hc H C text us segwitOn P = .panic ↔ segwitOn = true ∧ ∃ b, HexText text b ∧ CutWitness 2 b) := by
  have h2 := verify_panics (Or.inr rfl) H C hC text us segwitOn P (fun u hu _ _ _ h => not_multi_btc (hus u hu) h) (hin 2 (by simp))
  refine ⟨?_, verify_panics (Or.inl rfl) H C hC text us segwitOn P (fun u hu _ _ _ h => not_multi_cxc (hus u hu) h) (hin 1 (by simp)), h2⟩
  rw [← (C88_hc H C P text us [] segwitOn).2.2]
  exact h2

/-- C141 is false for verifying: take any transaction with one input that verifies against unlocking data for a P2PKH output. Verifying it against unlocking data for a multisig output instead (any
`required` of `keys`) panics instead of answering false. The curve must not accept an empty signature. -/
theorem C141_verify_key_as_multi_violated (H : Hashes) (C : Curve) (hC : ∀ p msg, C.verify p msg [] = false) (text : Bytes) (segwitOn : Bool) (P : AddressPrefix) (u : TxUnlock) (hu : IsP2pkh u)
    (hv : Btc.verifyRaw H C text [u] segwitOn P = .ok true)
    (required : UInt8) (keys : List Bytes) (h1 : 1 ≤ required.toNat) (h2 : required.toNat ≤ keys.length) (h3 : keys.length ≤ 15) (hk : ∀ k ∈ keys, k.length = 33)
    (script : Bytes) (hs : script.length = 20) (amount : UInt64) (ha : amount ≠ 0) :
    Btc.verifyRaw H C text [⟨Hex.encode (p2shScript script), Hex.encode (multisigScript required.toNat keys), amount, 1⟩] segwitOn P = .panic := by
  obtain ⟨b, t, i, lock, redeem, ty, m, r, r', hb, ht, hi, ho, hc, hm, hr, hat, hone⟩ := verify_one hv
  obtain ⟨s, hs'⟩ := check_isP2pkh hu
  rw [hs'] at hc
  cases hc
  obtain ⟨a, rfl⟩ := p2pkh_record hr
  have hdet := (C27_roundtrip_partial required keys h1 h2 h3 hk).2
  have hkey : i.inType = .p2pkh ∨ i.inType = .p2wpkh ∨ i.inType = .bech32 := by
    cases hty : i.inType with
    | p2pkh => exact Or.inl rfl
    | p2wpkh => exact Or.inr (Or.inl rfl)
    | bech32 => exact Or.inr (Or.inr rfl)
    | empty =>
      exfalso
      unfold attach at hat
      rw [hty] at hat
      cases hat
      unfold verifyOne at hone
      simp only [if_true] at hone
      obtain ⟨p, hp, hone⟩ := Res.bind_eq_ok.mp hone
      simp [hC] at hone
    | multi =>
      exfalso
      unfold attach at hat
      rw [hty] at hat
      dsimp only at hat
      cases hd : decodeMulti i.scriptMulti with
      | err => rw [hd] at hat; cases hat
      | panic => rw [hd] at hat; cases hat
      | ok l =>
        rw [hd] at hat
        dsimp only at hat
        split_ifs at hat
        cases hat
        unfold verifyOne at hone
        simp only [if_true] at hone
        obtain ⟨p, hp, hone⟩ := Res.bind_eq_ok.mp hone
        simp [hC] at hone
  have hlen : 37 ≤ (multisigScript required.toNat keys).length := by
    rw [multisigScript]
    cases keys with
    | nil => simp at h2; omega
    | cons k ks =>
      have := hk k (by simp)
      simp only [List.map_cons, List.flatten_cons, List.length_append, List.length_cons, push, List.length_nil, this]
      omega
  have hlast : (multisigScript required.toNat keys).getLast? = some 0xae := by
    rw [multisigScript, List.getLast?_append]; rfl
  have hc2 := check_multi (Hex.decode_encode (p2shScript script)) hs (Hex.decode_encode (multisigScript required.toNat keys)) hlen hlast
  have hcode : scriptCode (multisigScript required.toNat keys) = .ok (multisigScript required.toNat keys) :=
    script_code (x := UInt8.ofNat (0x50 + required.toNat)) (tl := (keys.map push).flatten ++ [UInt8.ofNat (0x50 + keys.length), 0xae]) (by simp [multisigScript]) (by
      rw [Ne, ← UInt8.toNat_inj, UInt8.toNat_ofNat']
      simp; omega)
  have hm2 : ∃ m2, Btc.bytesForSig H segwitOn { t with witness := false, vins := [setEmpty (setEmpty i)] } (p2shScript script) (multisigScript required.toNat keys) .multi 1 0 amount = .ok m2 := by
    unfold Btc.bytesForSig at hm ⊢
    rw [if_neg (by simp)]
    by_cases hst : u.sigType ≠ 1 ∧ InType.p2pkh ≠ .empty
    · rw [if_pos hst] at hm; cases hm
    rw [if_neg hst] at hm
    dsimp only at hm ⊢
    obtain ⟨x, hx, _⟩ := Res.bind_eq_ok.mp hm
    cases segwitOn with
    | true =>
      rw [if_pos rfl, index_ok (by simp)]
      simp only [Res.bind_ok]
      unfold segwitBytesForSig
      rw [hcode, Res.bind_ok, if_neg ha]
      exact ⟨_, rfl⟩
    | false =>
      rw [if_neg (by simp)]
      obtain ⟨y, hy⟩ := encodeTx_script (b := multisigScript required.toNat keys) (t := { t with witness := false }) (i := setEmpty (setEmpty i)) rfl hx
      exact ⟨y ++ leBytes 4 1, by
        have : encodeTx false { t with witness := false, vins := [setEmpty (setEmpty i)].modify 0 (fun i => { i with scriptPub := multisigScript required.toNat keys }) } = .ok y := hy
        simp only [this, Res.bind_ok]⟩
  obtain ⟨m2, hm2⟩ := hm2
  have hr2 : Btc.newTxHash H (H.hash .doubleSha256 m2) (p2shScript script) (multisigScript required.toNat keys) .multi 1 P =
      .ok ⟨Hex.encode (H.hash .doubleSha256 m2), required, none, keys.map (fun k => ⟨Hex.encode k, 1, ⟨none, none⟩⟩)⟩ := by
    unfold Btc.newTxHash
    dsimp only
    rw [hdet]; rfl
  exact verify_two hb ht hi ho hc2 hm2 hr2 (attach_key hkey hat rfl)

/-- The other way round: a transaction with one input that verifies without segwit against unlocking data for a multisig output makes the call panic when it is verified against unlocking data for a P2PKH
output. -/
theorem C141_verify_multi_as_key_violated (H : Hashes) (C : Curve) (hC : ∀ p msg, C.verify p msg [] = false) (text : Bytes) (P : AddressPrefix) (m : TxUnlock)
    (script redeem : Bytes) (hs : script.length = 20) (hl : HexText m.lockScript (p2shScript script)) (hr : HexText m.redeemScript redeem) (hn : 37 ≤ redeem.length)
    (hv : Btc.verifyRaw H C text [m] false P = .ok true) (keyHash : Bytes) (hk : keyHash.length = 20) (amount : UInt64) :
    Btc.verifyRaw H C text [⟨Hex.encode (p2pkhScript keyHash), [], amount, 1⟩] false P = .panic := by
  obtain ⟨b, t, i, lock, redeem', ty, msg, r, r', hb, ht, hi, ho, hc, hm, hrec, hat, hone⟩ := verify_one hv
  have hty : ty = .multi := by
    unfold checkScriptType at hc
    rw [(Eip.decode_iff _ _).mpr hl, (Eip.decode_iff _ _).mpr hr] at hc
    dsimp only at hc
    have e1 : (p2shScript script).length = 23 := by simp [p2shScript, hs]
    rw [if_neg (by rw [e1]; omega)] at hc
    split_ifs at hc with c1 c2 c3 c4
    · omega
    · cases hc; rfl
    · exfalso; omega
  subst hty
  have hsev := (record_kind hrec).2 rfl
  have hsig := multi_record hrec
  have none_counted : ∀ h : TxHash, h.nRequired ≠ 0 → (∀ x ∈ h.multi, x.sigPub.signature = none) → verifyOne C h ≠ .ok true := by
    intro h h0 hx hv
    unfold verifyOne at hv
    dsimp only at hv
    rw [if_neg h0] at hv
    obtain ⟨c, hc, hv⟩ := Res.bind_eq_ok.mp hv
    rw [no_counts hC _ _ hx _ _ _ hc] at hv
    simp only [Res.ok.injEq, beq_iff_eq] at hv
    exact h0 (UInt8.toNat_inj.mp hv.symm)
  have hc2 : checkScriptType (Hex.encode (p2pkhScript keyHash)) [] = .ok (p2pkhScript keyHash, [], .p2pkh) := check_p2pkh (Hex.decode_encode _) hk
  have hm2 : ∃ m2, Btc.bytesForSig H false { t with witness := false, vins := [setEmpty (setEmpty i)] } (p2pkhScript keyHash) [] .p2pkh 1 0 amount = .ok m2 := by
    unfold Btc.bytesForSig at hm ⊢
    rw [if_neg (by simp)]
    by_cases hst : m.sigType ≠ 1 ∧ InType.multi ≠ .empty
    · rw [if_pos hst] at hm; cases hm
    rw [if_neg hst] at hm
    dsimp only at hm ⊢
    rw [if_neg (by simp)] at hm
    obtain ⟨x, hx, _⟩ := Res.bind_eq_ok.mp hm
    obtain ⟨y, hy⟩ := encodeTx_script (b := p2pkhScript keyHash) (t := { t with witness := false }) (i := setEmpty (setEmpty i)) rfl hx
    exact ⟨y ++ leBytes 4 1, by
      have : encodeTx false { t with witness := false, vins := [setEmpty (setEmpty i)].modify 0 (fun i => { i with scriptPub := p2pkhScript keyHash }) } = .ok y := hy
      simp only [this, Res.bind_ok]⟩
  obtain ⟨m2, hm2⟩ := hm2
  have hr2 : ∃ r2, Btc.newTxHash H (H.hash .doubleSha256 m2) (p2pkhScript keyHash) [] .p2pkh 1 P = .ok r2 := by
    unfold Btc.newTxHash
    dsimp only
    have : (p2pkhScript keyHash).length = 25 := by simp [p2pkhScript, hk]
    rw [slice_ok (by omega) (by omega), Res.bind_ok]
    obtain ⟨a, ha, _⟩ := CheckMem.encodeCheck_total H P.p2pkh (((p2pkhScript keyHash).take 23).drop 3)
    rw [ha]
    exact ⟨_, rfl⟩
  obtain ⟨r2, hr2⟩ := hr2
  refine verify_two hb ht hi ho hc2 hm2 hr2 ?_
  obtain ⟨a, rfl⟩ := p2pkh_record hr2
  unfold attach at hat ⊢
  have hkey : ∀ x : Res (Bytes × Bytes × UInt8), (match x with
      | .ok (sig, pub, st) =>
        match r.normal with
        | none => Res.panic
        | some n => Res.ok (some { r with normal := some { n with sigType := st, sigPub := ⟨some sig, some pub⟩ } })
      | .err => Res.ok none
      | .panic => (Res.panic : Res (Option TxHash))) ≠ .ok (some r') := by
    intro x
    rw [hsev.place]
    cases x <;> simp
  cases hty : i.inType with
  | p2pkh => rw [hty] at hat; exact absurd hat (hkey _)
  | p2wpkh => rw [hty] at hat; exact absurd hat (hkey _)
  | bech32 => rw [hty] at hat; exact absurd hat (hkey _)
  | empty =>
    rw [hty] at hat
    cases hat
    exact absurd hone (none_counted r hsev.req hsig)
  | multi =>
    rw [hty] at hat
    dsimp only at hat ⊢
    cases hd : decodeMulti i.scriptMulti with
    | err => rw [hd] at hat; cases hat
    | panic => rfl
    | ok l =>
      rw [hd] at hat
      dsimp only at hat ⊢
      by_cases hl0 : l = []
      · subst hl0
        exfalso
        rw [if_neg (by simp)] at hat
        cases hat
        refine none_counted _ ?_ ?_ hone
        · exact hsev.req
        intro x hx
        obtain ⟨⟨y, j⟩, hy, rfl⟩ := List.mem_map.mp hx
        simp only [List.getElem?_nil]
        exact hsig y (by
          have := List.mem_zipIdx hy
          rw [this.2.2]
          exact List.getElem_mem _)
      · rw [if_pos (by simpa using List.length_pos_iff.mpr hl0)]

/-- C141 is false for verifying, third case: there is a transaction text that makes the call panic whatever the unlocking data of its only input, as long as they are for a P2PKH output and
accepted: the unlocking script is the three bytes fd 00 00. -/
theorem C141_verify_script_violated : ∃ text, ∀ (H : Hashes) (C : Curve) (P : AddressPrefix) (segwitOn : Bool) (keyHash : Bytes) (_ : keyHash.length = 20) (amount : UInt64),
    Btc.verifyRaw H C text [⟨Hex.encode (p2pkhScript keyHash), [], amount, 1⟩] segwitOn P = .panic := by
  refine ⟨Hex.encode (leBytes 4 2 ++ [1] ++ List.replicate 36 7 ++ [0xfd, 0x00, 0x00] ++ List.replicate 4 0xff ++ [1] ++ List.replicate 8 1 ++ [1, 0x51] ++ leBytes 4 0), ?_⟩
  intro H C P segwitOn keyHash hk amount
  have ht : decodeTx (hexSpare (leBytes 4 2 ++ [1] ++ List.replicate 36 7 ++ [0xfd, 0x00, 0x00] ++ List.replicate 4 0xff ++ [1] ++ List.replicate 8 1 ++ [1, 0x51] ++ leBytes 4 0)) segwitOn
      (leBytes 4 2 ++ [1] ++ List.replicate 36 7 ++ [0xfd, 0x00, 0x00] ++ List.replicate 4 0xff ++ [1] ++ List.replicate 8 1 ++ [1, 0x51] ++ leBytes 4 0) =
      .ok ⟨leBytes 4 2, [⟨.multi, List.replicate 32 7, List.replicate 4 7, [], [], List.replicate 4 0xff, [0xfd, 0, 0]⟩], [⟨List.replicate 8 1, [0x51]⟩], leBytes 4 0, false⟩ := by
    cases segwitOn <;> rfl
  have hc2 : checkScriptType (Hex.encode (p2pkhScript keyHash)) [] = .ok (p2pkhScript keyHash, [], .p2pkh) := check_p2pkh (Hex.decode_encode _) hk
  have hr2 : ∀ m2, ∃ r2, Btc.newTxHash H (H.hash .doubleSha256 m2) (p2pkhScript keyHash) [] .p2pkh 1 P = .ok r2 := by
    intro m2
    unfold Btc.newTxHash
    dsimp only
    have : (p2pkhScript keyHash).length = 25 := by simp [p2pkhScript, hk]
    rw [slice_ok (by omega) (by omega), Res.bind_ok]
    obtain ⟨a, ha, _⟩ := CheckMem.encodeCheck_total H P.p2pkh (((p2pkhScript keyHash).take 23).drop 3)
    rw [ha]
    exact ⟨_, rfl⟩
  obtain ⟨r2, hr2⟩ := hr2 _
  refine verify_two (Hex.decode_encode _) ht rfl (by simp) hc2 ?_ hr2 rfl
  unfold Btc.bytesForSig
  rw [if_neg (by simp)]
  rfl

/-- A curve for the examples: it accepts every signature but the empty one. -/
def lenientCurve : Curve where
  decompress k := 0x04 :: k
  verify _ _ s := !s.isEmpty

-- a P2PKH input, verified against the right unlocking data and against unlocking data for a multisig output
example : Btc.verifyRaw toyHashes lenientCurve (Hex.encode (demoSigned (sigPush11 ++ push key0))) [p2pkhUnlock (List.replicate 20 5)] false btcMainnet = .ok true ∧
    Btc.verifyRaw toyHashes lenientCurve (Hex.encode (demoSigned (sigPush11 ++ push key0))) [multiUnlock 2 [key0, key1, key2]] false btcMainnet = .panic := by
  have h : Btc.verifyRaw toyHashes lenientCurve (Hex.encode (demoSigned (sigPush11 ++ push key0))) [p2pkhUnlock (List.replicate 20 5)] false btcMainnet = .ok true := by decide +kernel
  exact ⟨h, C141_verify_key_as_multi_violated toyHashes lenientCurve (fun _ _ => rfl) _ false btcMainnet _ (p2pkhUnlock_is (by simp)) h 2 [key0, key1, key2] (by decide) (by decide) (by decide)
    (by decide) (List.replicate 20 5) (by simp) 7 (by decide)⟩

-- the same text meets the hypotheses of `C141_verify_partial`
example : Btc.verifyRaw toyHashes lenientCurve (Hex.encode (demoSigned (sigPush11 ++ push key0))) [p2pkhUnlock (List.replicate 20 5)] false btcMainnet ≠ .panic := by
  intro h
  have := (C141_verify_partial toyHashes lenientCurve (fun _ => by simp [lenientCurve]) (Hex.encode (demoSigned (sigPush11 ++ push key0))) [p2pkhUnlock (List.replicate 20 5)] false btcMainnet
    (by simp [p2pkhUnlock]) (by
      intro v hv b t hb ht
      have := (Eip.decode_iff _ _).mpr hb
      rw [Hex.decode_encode] at this
      cases this
      have : ∀ v ∈ [1, 2], (match decodeTxV v (hexSpare (demoSigned (sigPush11 ++ push key0))) false (demoSigned (sigPush11 ++ push key0)) with
          | .ok t => t.vins.all fun i => decide (i.inType ≠ .multi)
          | _ => true) = true := by decide +kernel
      have := this v hv
      rw [ht] at this
      simpa using this)).1.mp h
  simp at this

-- a multisig input, verified against the right unlocking data and against unlocking data for a P2PKH output
example : ∃ text, Btc.verifyRaw toyHashes lenientCurve text [multiUnlock 2 [key0, key1, key2]] false btcMainnet = .ok true ∧
    Btc.verifyRaw toyHashes lenientCurve text [p2pkhUnlock (List.replicate 20 5)] false btcMainnet = .panic := by
  have h : Btc.verifyRaw toyHashes lenientCurve (Hex.encode (demoSigned ((Unlocking.multi (List.replicate 2 der11) (multisigScript 2 [key0, key1, key2])).script id)))
      [multiUnlock 2 [key0, key1, key2]] false btcMainnet = .ok true := by decide +kernel
  exact ⟨_, h, C141_verify_multi_as_key_violated toyHashes lenientCurve (fun _ _ => rfl) _ btcMainnet _ (List.replicate 20 5) (multisigScript 2 [key0, key1, key2]) (by simp)
    ((Eip.decode_iff _ _).mp (Hex.decode_encode _)) ((Eip.decode_iff _ _).mp (Hex.decode_encode _)) (by decide) h (List.replicate 20 5) (by simp) 0⟩

end Verif
