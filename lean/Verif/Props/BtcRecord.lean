import Verif.Model.BtcRecord
import Verif.Props.BtcAddress
import Verif.Props.BtcInsert
import Verif.Props.BtcHc

/-! C136: reading the records returned by `CreateRawTransactionHashForSig` through their methods. -/

namespace Verif
open Verif.Spec Verif.Btc

/-- What a caller sees of a record of an input that one key unlocks: not multisig, an address, no keys. -/
def ReadsAsOne (th : TxHash) : Prop := isMultisig th = false ∧ (∃ a, getNormalTxAddress th = .ok a) ∧ getMultiTxPubkeys th = []

/-- What a caller sees of a record of an input whose redeem script starts by listing `keys`, `m` of which must sign: multisig, the keys in order,
and no address (asking for it panics). -/
def ReadsAsMulti (m : Nat) (keys : List Bytes) (th : TxHash) : Prop :=
  isMultisig th = true ∧ getNormalTxAddress th = .panic ∧ getMultiTxPubkeys th = keys.map Hex.encode ∧ th.nRequired.toNat = m

/-- `r` starts like a multisig script: `m`, the keys, each with its length, and their number; `m` is at most 16 and the number of keys, a key has 33
bytes. -/
def StartsMultisig (m : Nat) (keys : List Bytes) (r : Bytes) : Prop :=
  1 ≤ m ∧ m ≤ 16 ∧ m ≤ keys.length ∧ (∀ k ∈ keys, k.length = 33) ∧
    ∃ tail, r = [UInt8.ofNat (0x50 + m)] ++ (keys.map push).flatten ++ [UInt8.ofNat (0x50 + keys.length)] ++ tail

namespace BtcRec

theorem pubkeys_go (l : List MultiTx) : ∀ ret, getMultiTxPubkeys.go ret l = ret ++ l.map MultiTx.pubkey := by
  induction l with
  | nil => simp [getMultiTxPubkeys.go]
  | cons p ps ih => intro ret; rw [getMultiTxPubkeys.go, ih]; simp

theorem pubkeys_eq (th : TxHash) : getMultiTxPubkeys th = th.multi.map MultiTx.pubkey := by
  rw [getMultiTxPubkeys, pubkeys_go, List.nil_append]

theorem readKeys_parts : ∀ {f : Nat} {b rest : Bytes} {ks : List Bytes}, readKeys f b = .ok (ks, rest) →
    b = (ks.map push).flatten ++ rest ∧ ∀ k ∈ ks, k.length = 33 := by
  intro f
  induction f with
  | zero => intro b rest ks h; simp [readKeys] at h
  | succ f ih =>
    intro b rest ks h
    unfold readKeys at h
    split at h
    · simp at h
    · rename_i x r
      split at h
      · simp only [Res.ok.injEq, Prod.mk.injEq] at h
        obtain ⟨rfl, rfl⟩ := h
        simp
      · rename_i hx
        split at h
        · simp at h
        · rename_i hlen
          split at h
          · rename_i ks' rest' he
            simp only [Res.ok.injEq, Prod.mk.injEq] at h
            obtain ⟨rfl, rfl⟩ := h
            obtain ⟨h1, h2⟩ := ih he
            have hl : (r.take 0x21).length = 33 := by simp; omega
            refine ⟨?_, ?_⟩
            · simp only [List.map_cons, List.flatten_cons, push, hl, List.append_assoc]
              rw [← h1]
              simp only [List.cons_append, List.take_append_drop]
              simp only [ne_eq, Decidable.not_not] at hx
              rw [hx]; rfl
            · intro k hk
              simp only [List.mem_cons] at hk
              rcases hk with rfl | hk
              · exact hl
              · exact h2 k hk
          · simp at h
          · simp at h

theorem details_parts {r : Bytes} {n : UInt8} {ks : List Bytes} (h : getMultiDetails r = .ok (n, ks)) : StartsMultisig n.toNat ks r := by
  unfold getMultiDetails at h
  obtain ⟨⟨x, b⟩, h1, h⟩ := Res.bind_eq_ok.mp h
  simp only at h
  split at h
  · simp at h
  · rename_i hn
    obtain ⟨⟨ks', b'⟩, h2, h⟩ := Res.bind_eq_ok.mp h
    obtain ⟨⟨y, tl⟩, h3, h⟩ := Res.bind_eq_ok.mp h
    simp only at h
    split at h
    · simp at h
    · rename_i ht
      simp only [Res.ok.injEq, Prod.mk.injEq] at h
      obtain ⟨rfl, rfl⟩ := h
      simp only [not_or, ne_eq, Decidable.not_not] at ht hn
      obtain ⟨e1, e2⟩ := readKeys_parts h2
      have r1 : r = x :: b := by cases r <;> simp_all [take1]
      have r2 : b' = y :: tl := by cases b' <;> simp_all [take1]
      have hx : x = UInt8.ofNat (0x50 + (x + 1 - 0x51).toNat) := by
        have : ∀ x : UInt8, x = UInt8.ofNat (0x50 + (x + 1 - 0x51).toNat) := by apply Hex.u8_forall; decide +kernel
        exact this x
      have hy : y = UInt8.ofNat (0x50 + ks'.length) := by
        have : ∀ y : UInt8, y = 0x50 + (y + 1 - 0x51) := by apply Hex.u8_forall; decide +kernel
        rw [this y, ht.1, UInt8.ofNat_add]
        rfl
      refine ⟨?_, ?_, ?_, e2, tl, ?_⟩
      · have := hn.1
        rw [UInt8.le_iff_toNat_le] at this
        simp only [UInt8.toNat_ofNat] at this
        omega
      · have := hn.2
        rw [UInt8.not_lt, UInt8.le_iff_toNat_le] at this
        exact this
      · have := ht.2
        rw [ht.1, UInt8.not_lt, UInt8.le_iff_toNat_le, UInt8.toNat_ofNat'] at this
        exact this.trans (Nat.mod_le _ _)
      · rw [← hx, ← hy, r1, e1, r2]; simp

theorem newTxHash_reads {H : Hashes} {d lock redeem : Bytes} {ty : InType} {st : UInt8} {P : AddressPrefix} {th : TxHash}
    (h : newTxHash H d lock redeem ty st P = .ok th) :
    (ty ≠ .multi ∧ ReadsAsOne th) ∨ (ty = .multi ∧ ∃ m keys, StartsMultisig m keys redeem ∧ ReadsAsMulti m keys th) := by
  cases ty with
  | multi =>
    right
    obtain ⟨⟨n, ks⟩, h1, h⟩ := Res.bind_eq_ok.mp h
    simp only [Res.ok.injEq] at h
    subst h
    have hs := details_parts h1
    refine ⟨rfl, _, ks, hs, ?_, rfl, ?_, rfl⟩
    · have : n ≠ 0 := by
        rintro rfl
        exact absurd hs.1 (by decide)
      simp [isMultisig, this]
    · rw [pubkeys_eq]
      simp
  | empty => simp [newTxHash] at h
  | p2pkh =>
    obtain ⟨_, _, h⟩ := Res.bind_eq_ok.mp h
    obtain ⟨a, _, h⟩ := Res.bind_eq_ok.mp h
    simp only [Res.ok.injEq] at h
    subst h
    exact Or.inl ⟨by decide, rfl, ⟨a, rfl⟩, rfl⟩
  | p2wpkh =>
    obtain ⟨_, _, h⟩ := Res.bind_eq_ok.mp h
    obtain ⟨a, _, h⟩ := Res.bind_eq_ok.mp h
    simp only [Res.ok.injEq] at h
    subst h
    exact Or.inl ⟨by decide, rfl, ⟨a, rfl⟩, rfl⟩
  | bech32 =>
    obtain ⟨_, _, h⟩ := Res.bind_eq_ok.mp h
    obtain ⟨a, _, h⟩ := Res.bind_eq_ok.mp h
    simp only [Res.ok.injEq] at h
    subst h
    exact Or.inl ⟨by decide, rfl, ⟨a, rfl⟩, rfl⟩

theorem newTxHashBch_reads {F : Hashes → AddressPrefix → Bytes → Res Bytes} {H : Hashes} {d lock redeem : Bytes} {ty : InType} {st : UInt8} {P : AddressPrefix}
    {th : TxHash} (h : BtcVariants.newTxHashBch F H d lock redeem ty st P = .ok th) :
    (ty ≠ .multi ∧ ReadsAsOne th) ∨ (ty = .multi ∧ ∃ m keys, StartsMultisig m keys redeem ∧ ReadsAsMulti m keys th) := by
  cases ty with
  | multi => exact newTxHash_reads (H := H) (lock := lock) (ty := .multi) (P := P) h
  | empty => simp [BtcVariants.newTxHashBch] at h
  | bech32 => simp [BtcVariants.newTxHashBch] at h
  | p2pkh =>
    obtain ⟨_, _, h⟩ := Res.bind_eq_ok.mp h
    obtain ⟨a, _, h⟩ := Res.bind_eq_ok.mp h
    simp only [Res.ok.injEq] at h
    subst h
    exact Or.inl ⟨by decide, rfl, ⟨a, rfl⟩, rfl⟩
  | p2wpkh => exact newTxHash_reads (H := H) (lock := lock) (ty := .p2wpkh) (P := P) h

theorem loop_reads {V : BtcVariants.Variant} {H : Hashes} {seg : Bool} {P : AddressPrefix} {Q : TxUnlock → TxHash → Prop}
    (hQ : ∀ t i u th, BtcVariants.hashForSig V H seg P t i u = .ok th → Q u th) :
    ∀ (us : List TxUnlock) (t : Tx) (i : Nat) (hs : List TxHash), BtcVariants.hashesLoop V H seg P t i us = .ok hs → List.Forall₂ Q us hs := by
  intro us
  induction us with
  | nil => intro t i hs h; simp only [BtcVariants.hashesLoop, Res.ok.injEq] at h; subst h; exact .nil
  | cons u us ih =>
    intro t i hs h
    obtain ⟨th, h1, h⟩ := Res.bind_eq_ok.mp h
    obtain ⟨ths, h2, h⟩ := Res.bind_eq_ok.mp h
    simp only [Res.ok.injEq] at h
    subst h
    exact .cons (hQ _ _ _ _ h1) (ih _ _ _ h2)

theorem create_reads {V : BtcVariants.Variant} {H : Hashes} {seg : Bool} {P : AddressPrefix} {Q : TxUnlock → TxHash → Prop}
    (hQ : ∀ t i u th, BtcVariants.hashForSig V H seg P t i u = .ok th → Q u th) {txHex : Bytes} {us : List TxUnlock} {hs : List TxHash}
    (h : BtcVariants.createHashes V H txHex us seg P = .ok hs) : List.Forall₂ Q us hs := by
  obtain ⟨_, _, h⟩ := Res.bind_eq_ok.mp h
  obtain ⟨t, _, h⟩ := Res.bind_eq_ok.mp h
  unfold BtcVariants.hashesForSig at h
  split at h
  · simp at h
  · split at h
    · simp at h
    · exact loop_reads hQ us t 0 hs h

theorem check_kind {l r s rd : Bytes} {ty : InType} (h : checkScriptType l r = .ok (s, rd, ty)) : Hex.decode l = .ok s ∧
    ((ty = .p2pkh ∧ ∃ k, k.length = 20 ∧ s = p2pkhScript k ∧ r = []) ∨
     (ty = .p2wpkh ∧ ∃ k p, k.length = 20 ∧ p.length = 20 ∧ s = p2shScript k ∧ Hex.decode r = .ok (witnessV0Script p)) ∨
     (ty = .bech32 ∧ ∃ p, p.length = 20 ∧ s = witnessV0Script p ∧ r = []) ∨
     (ty = .multi ∧ ∃ k, k.length = 20 ∧ s = p2shScript k ∧ Hex.decode r = .ok rd ∧ rd.getLast? = some 0xae)) := by
  unfold checkScriptType at h
  cases hd : Hex.decode l with
  | err => rw [hd] at h; simp at h
  | panic => rw [hd] at h; simp at h
  | ok s' =>
    rw [hd] at h
    simp only at h
    split at h
    · rename_i c
      obtain ⟨k, tail, h1, h2, h3⟩ := (keyHash_shape s' 25 (by omega)).mp c
      split at h
      · simp at h
      · rename_i hr
        simp only [Res.ok.injEq, Prod.mk.injEq] at h
        obtain ⟨rfl, rfl, rfl⟩ := h
        refine ⟨rfl, Or.inl ⟨rfl, k, h1, ?_, by simpa using hr⟩⟩
        rw [h3, List.length_eq_zero_iff.mp h2, List.append_nil]
    · split at h
      · rename_i c
        obtain ⟨k, tail, h1, h2, h3⟩ := (scriptHash_shape s' 23 (by omega)).mp c
        rw [List.length_eq_zero_iff.mp h2, List.append_nil] at h3
        cases hr : Hex.decode r with
        | err => rw [hr] at h; simp at h
        | panic => rw [hr] at h; simp at h
        | ok r' =>
          rw [hr] at h
          simp only at h
          split at h
          · rename_i c'
            obtain ⟨p, hp, rfl⟩ := (program_shape r').mp c'
            simp only [Res.ok.injEq, Prod.mk.injEq] at h
            obtain ⟨rfl, rfl, rfl⟩ := h
            exact ⟨rfl, Or.inr (Or.inl ⟨rfl, k, p, h1, hp, h3, rfl⟩)⟩
          · split at h
            · rename_i c'
              simp only [Res.ok.injEq, Prod.mk.injEq] at h
              obtain ⟨rfl, rfl, rfl⟩ := h
              exact ⟨rfl, Or.inr (Or.inr (Or.inr ⟨rfl, k, h1, h3, rfl, c'.2⟩))⟩
            · simp at h
      · split at h
        · rename_i c
          obtain ⟨p, hp, rfl⟩ := (program_shape s').mp c
          split at h
          · simp at h
          · rename_i hr
            simp only [Res.ok.injEq, Prod.mk.injEq] at h
            obtain ⟨rfl, rfl, rfl⟩ := h
            exact ⟨rfl, Or.inr (Or.inr (Or.inl ⟨rfl, p, hp, rfl, by simpa using hr⟩))⟩
        · simp at h

end BtcRec

/-- The output is unlocked by one key: a key hash, a witness key hash, or a witness key hash inside a script hash. -/
def OneKeyOutput (u : TxUnlock) : Prop :=
  ∃ k, k.length = 20 ∧ ((Hex.decode u.lockScript = .ok (p2pkhScript k) ∧ u.redeemScript = []) ∨ (Hex.decode u.lockScript = .ok (witnessV0Script k) ∧ u.redeemScript = []) ∨
    (Hex.decode u.lockScript = .ok (p2shScript k) ∧ ∃ p, p.length = 20 ∧ Hex.decode u.redeemScript = .ok (witnessV0Script p)))

/-- The output is a script hash, and the redeem script given starts like a multisig script of `m` of `keys` and ends with its opcode. -/
def MultisigOutput (m : Nat) (keys : List Bytes) (u : TxUnlock) : Prop :=
  ∃ k r, k.length = 20 ∧ Hex.decode u.lockScript = .ok (p2shScript k) ∧ Hex.decode u.redeemScript = .ok r ∧ StartsMultisig m keys r ∧ r.getLast? = some 0xae

/-- C136, Bitcoin (and HyperCash and Omni, whose functions are the same): there is one record per input, in order, and its methods tell what
kind of output is spent: one key, then the address is there and there are no keys; or multisig, then the keys are those of the redeem script,
at least as many as must sign, and asking for the address panics. -/
theorem C136_btc (H : Hashes) (P : AddressPrefix) (txHex : Bytes) (us : List TxUnlock) (segwitOn : Bool) (hs : List TxHash)
    (hc : Btc.createHashes H txHex us segwitOn P = .ok hs) :
    List.Forall₂ (fun u th => (OneKeyOutput u ∧ ReadsAsOne th) ∨ ∃ m keys, MultisigOutput m keys u ∧ ReadsAsMulti m keys th) us hs := by
  rw [← (C88_hc H ⟨fun x => x, fun _ _ _ => true⟩ P txHex us [] segwitOn).1] at hc
  refine BtcRec.create_reads (V := BtcVariants.hc) ?_ hc
  intro t i u th h
  obtain ⟨⟨s, rd, ty⟩, h1, h⟩ := Res.bind_eq_ok.mp h
  obtain ⟨b, _, h⟩ := Res.bind_eq_ok.mp h
  obtain ⟨hd, hk⟩ := BtcRec.check_kind (h1 : checkScriptType u.lockScript u.redeemScript = _)
  rcases BtcRec.newTxHash_reads h with ⟨hne, ho⟩ | ⟨rfl, m, keys, hs, hr⟩
  · left
    refine ⟨?_, ho⟩
    rcases hk with ⟨_, k, a1, rfl, a3⟩ | ⟨_, k, p, a1, a2, rfl, a4⟩ | ⟨_, p, a1, rfl, a3⟩ | ⟨a, _⟩
    · exact ⟨k, a1, Or.inl ⟨hd, a3⟩⟩
    · exact ⟨k, a1, Or.inr (Or.inr ⟨hd, p, a2, a4⟩)⟩
    · exact ⟨p, a1, Or.inr (Or.inl ⟨hd, a3⟩)⟩
    · exact absurd a hne
  · right
    simp only [reduceCtorEq, false_and, false_or, true_and] at hk
    obtain ⟨k, a1, rfl, a3, a4⟩ := hk
    exact ⟨m, keys, ⟨k, rd, a1, hd, a3, hs, a4⟩, hr⟩

/-- C136, the other packages: every record reads either way, in the second case with the keys of the redeem script that comes with the input. -/
theorem C136_variants (V : BtcVariants.Variant) (hV : V = BtcVariants.bch ∨ V = BtcVariants.bsv ∨ V = BtcVariants.cxc ∨ V = BtcVariants.zen) (H : Hashes)
    (P : AddressPrefix) (txHex : Bytes) (us : List TxUnlock) (segwitOn : Bool) (hs : List TxHash)
    (hc : BtcVariants.createHashes V H txHex us segwitOn P = .ok hs) :
    List.Forall₂ (fun u th => ReadsAsOne th ∨ ∃ m keys r, Hex.decode u.redeemScript = .ok r ∧ StartsMultisig m keys r ∧ ReadsAsMulti m keys th) us hs := by
  refine BtcRec.create_reads (V := V) ?_ hc
  intro t i u th h
  obtain ⟨⟨s, rd, ty⟩, h1, h⟩ := Res.bind_eq_ok.mp h
  obtain ⟨b, _, h⟩ := Res.bind_eq_ok.mp h
  have h2 : (ty ≠ .multi ∧ ReadsAsOne th) ∨ (ty = .multi ∧ ∃ m keys, StartsMultisig m keys rd ∧ ReadsAsMulti m keys th) := by
    rcases hV with rfl | rfl | rfl | rfl
    · exact BtcRec.newTxHashBch_reads h
    · exact BtcRec.newTxHashBch_reads h
    · exact BtcRec.newTxHash_reads h
    · exact BtcRec.newTxHash_reads h
  rcases h2 with ⟨_, ho⟩ | ⟨rfl, m, keys, hs, hr⟩
  · exact Or.inl ho
  · refine Or.inr ⟨m, keys, rd, ?_, hs, hr⟩
    have key : ∀ c : Bytes → Bytes → Res (Bytes × Bytes × InType), (c = BtcVariants.checkBch ∨ c = BtcVariants.checkCxc ∨ c = BtcVariants.checkZen) →
        c u.lockScript u.redeemScript = .ok (s, rd, .multi) → Hex.decode u.redeemScript = .ok rd := by
      rintro c (rfl | rfl | rfl) hc
      · unfold BtcVariants.checkBch at hc
        repeat' split at hc
        all_goals simp_all
      · unfold BtcVariants.checkCxc at hc
        repeat' split at hc
        all_goals simp_all
      · simp [BtcVariants.checkZen] at hc
    rcases hV with rfl | rfl | rfl | rfl
    · exact key _ (Or.inl rfl) h1
    · exact key _ (Or.inl rfl) h1
    · exact key _ (Or.inr (Or.inl rfl)) h1
    · exact key _ (Or.inr (Or.inr rfl)) h1

/-- C136, Horizen: no record is a multisig one. -/
theorem C136_zen (H : Hashes) (P : AddressPrefix) (txHex : Bytes) (us : List TxUnlock) (segwitOn : Bool) (hs : List TxHash)
    (hc : BtcVariants.createHashes BtcVariants.zen H txHex us segwitOn P = .ok hs) : hs.length = us.length ∧ ∀ th ∈ hs, ReadsAsOne th := by
  have h : List.Forall₂ (fun _ th => ReadsAsOne th) us hs := by
    refine BtcRec.create_reads (V := BtcVariants.zen) ?_ hc
    intro t i u th h
    obtain ⟨⟨s, rd, ty⟩, h1, h⟩ := Res.bind_eq_ok.mp h
    obtain ⟨b, _, h⟩ := Res.bind_eq_ok.mp h
    rcases BtcRec.newTxHash_reads h with ⟨_, ho⟩ | ⟨rfl, _⟩
    · exact ho
    · simp [BtcVariants.zen, BtcVariants.checkZen] at h1
  refine ⟨h.length_eq.symm, fun th ht => ?_⟩
  obtain ⟨i, hi, rfl⟩ := List.mem_iff_getElem.mp ht
  exact h.get (by rw [h.length_eq]; exact hi) hi

theorem BtcRec.details_tail (m : UInt8) (keys : List Bytes) (hm1 : 1 ≤ m.toNat) (hm2 : m.toNat ≤ keys.length) (hn : keys.length ≤ 15)
    (hkl : ∀ k ∈ keys, k.length = 33) (tail : Bytes) :
    getMultiDetails ([UInt8.ofNat (0x50 + m.toNat)] ++ (keys.map push).flatten ++ [UInt8.ofNat (0x50 + keys.length)] ++ tail) = .ok (m, keys) := by
  have hlen : ((keys.map push).flatten).length = 34 * keys.length := by
    rw [flatten_length_map push (fun _ => 34) keys (fun k hkm => by simp [push, hkl k hkm])]
    simp only [List.map_const', List.sum_replicate_nat, Nat.mul_comm]
  have hy : UInt8.ofNat (0x50 + keys.length) ≠ 0x21 := u8_ofNat_ne (by omega) (by simp; omega)
  have e1 : UInt8.ofNat (0x50 + m.toNat) + 1 - 0x51 = m := by
    apply UInt8.toNat_inj.mp
    simp [UInt8.toNat_sub, UInt8.toNat_add]
    omega
  have e2 : UInt8.ofNat (0x50 + keys.length) + 1 - 0x51 = UInt8.ofNat keys.length := by
    apply UInt8.toNat_inj.mp
    simp [UInt8.toNat_sub, UInt8.toNat_add]
    omega
  unfold getMultiDetails
  simp only [List.append_assoc, List.cons_append, List.nil_append, take1, Res.bind_ok, e1]
  rw [if_neg]
  · rw [readKeys_ok _ tail hy keys _ (by simp [hlen]; omega) hkl]
    simp only [Res.bind_ok, e2]
    rw [if_neg]
    rintro (hc | hc)
    · exact hc rfl
    · have : (UInt8.ofNat keys.length).toNat < m.toNat := hc
      simp at this
      omega
  · rintro (hc | hc)
    · have : m.toNat ≤ (0 : UInt8).toNat := hc
      simp at this
      omega
    · have : (16 : UInt8).toNat < m.toNat := hc
      simp at this
      omega

/-- C136, limit: what follows the number of keys in a redeem script is not looked at, except that its last byte must be 0xae. So a script that is
no multisig script at all is reported as one, whatever else it demands or allows. -/
theorem C136_limit_tail (H : Hashes) (P : AddressPrefix) (txHex : Bytes) (us : List TxUnlock) (segwitOn : Bool) (hs : List TxHash)
    (hc : Btc.createHashes H txHex us segwitOn P = .ok hs) (i : Nat) (u : TxUnlock) (hi : us[i]? = some u) (k : Bytes) (hk : k.length = 20)
    (m : UInt8) (keys : List Bytes) (hm1 : 1 ≤ m.toNat) (hm2 : m.toNat ≤ keys.length) (hn : keys.length ≤ 15) (hkl : ∀ k ∈ keys, k.length = 33)
    (tail : Bytes) (hlock : Hex.decode u.lockScript = .ok (p2shScript k))
    (hred : Hex.decode u.redeemScript = .ok ([UInt8.ofNat (0x50 + m.toNat)] ++ (keys.map push).flatten ++ [UInt8.ofNat (0x50 + keys.length)] ++ tail))
    (ht : tail.getLast? = some 0xae) : ∃ th, hs[i]? = some th ∧ ReadsAsMulti m.toNat keys th := by
  rw [← (C88_hc H ⟨fun x => x, fun _ _ _ => true⟩ P txHex us [] segwitOn).1] at hc
  have hall : List.Forall₂ (fun v th => v = u → ReadsAsMulti m.toNat keys th) us hs := by
    refine BtcRec.create_reads (V := BtcVariants.hc) ?_ hc
    rintro t j v th h rfl
    have h37 : 37 ≤ ([UInt8.ofNat (0x50 + m.toNat)] ++ (keys.map push).flatten ++ [UInt8.ofNat (0x50 + keys.length)] ++ tail).length := by
      have hlen : ((keys.map push).flatten).length = 34 * keys.length := by
        rw [flatten_length_map push (fun _ => 34) keys (fun k hkm => by simp [push, hkl k hkm])]
        simp only [List.map_const', List.sum_replicate_nat, Nat.mul_comm]
      have : tail ≠ [] := by rintro rfl; simp at ht
      have := List.length_pos_iff.mpr this
      simp only [List.length_append, hlen, List.length_cons, List.length_nil]
      omega
    have hck := check_multi hlock hk hred h37 (by rw [List.getLast?_append, ht]; rfl)
    unfold BtcVariants.hashForSig at h
    simp only [BtcVariants.hc] at h
    rw [hck, Res.bind_ok] at h
    obtain ⟨b, _, h⟩ := Res.bind_eq_ok.mp h
    unfold newTxHash at h
    simp only [BtcRec.details_tail m keys hm1 hm2 hn hkl tail, Res.bind_ok, Res.ok.injEq] at h
    subst h
    refine ⟨?_, rfl, ?_, rfl⟩
    · have : m ≠ 0 := by rintro rfl; exact absurd hm1 (by decide)
      simp [isMultisig, this]
    · rw [BtcRec.pubkeys_eq]
      simp
  have hlt : i < us.length := by
    by_contra hge
    rw [List.getElem?_eq_none (by omega)] at hi
    cases hi
  have hlt' : i < hs.length := hall.length_eq ▸ hlt
  refine ⟨hs[i], List.getElem?_eq_getElem hlt', hall.get hlt hlt' ?_⟩
  rw [List.getElem?_eq_getElem hlt] at hi
  exact Option.some.inj hi

/-! Both kinds occur, also a redeem script that goes on with something else after the number of keys (here OP_DROP, OP_1). -/

namespace BtcAddr

example : ∃ th, Btc.createHashes toyHashes (Hex.encode demoTx.ser) [⟨Hex.encode (p2pkhScript (List.replicate 20 5)), [], 1, 1⟩] false btcMainnet = .ok [th] ∧
    isMultisig th = false := by
  refine ⟨_, Eq.refl _, ?_⟩
  decide +kernel

example : ∀ tail ∈ [[0xae], [0x75, 0x51, 0xae]],
    (match Btc.createHashes toyHashes (Hex.encode demoTx.ser) [⟨Hex.encode (p2shScript (List.replicate 20 5)),
      Hex.encode ([0x52] ++ ([key0, key1].map push).flatten ++ [0x52] ++ tail), 1, 1⟩] false btcMainnet with
    | .ok [th] => isMultisig th && decide (getMultiTxPubkeys th = [Hex.encode key0, Hex.encode key1] ∧ getNormalTxAddress th = .panic)
    | _ => false) = true := by
  decide +kernel

end BtcAddr

end Verif
