import Verif.Spec.BtcSpend
import Verif.Props.BtcVerify

/-! Property C123: the transactions that `InsertSignatureIntoEmptyTransaction` returns are signed in the standard form (package btcTransaction). -/

namespace Verif
open Verif.Spec Verif.Btc

namespace Btc

/-- `der` is the DER form, with the signature type `sty` (1 is SIGHASH_ALL), of the 64-byte signature `sig`, whose numbers are not zero. -/
def IsSig (sty : UInt8) (sig der : Bytes) : Prop :=
  sig.length = 64 ∧ beNat (sig.take 32) ≠ 0 ∧ beNat (sig.drop 32) ≠ 0 ∧
    ∃ R S, IsDerInt R (beNat (sig.take 32)) ∧ IsDerInt S (beNat (sig.drop 32)) ∧ der = derSig R S ++ [sty]

/-- The redeem script that goes with an output that one key can spend. -/
def KeyRedeem (u : TxUnlock) : KeyOutput → Prop
  | .nested _ k => Hex.decode u.redeemScript = .ok (witnessV0Script k)
  | _ => u.redeemScript = []

/-- What the caller of `InsertSignatureIntoEmptyTransaction` passes for an input that spends the output `o`: its scripts, and a record that holds
signature and key. -/
structure SignedOne (sty : UInt8) (u : TxUnlock) (h : TxHash) (o : KeyOutput) (sig pub der : Bytes) : Prop where
  ok : o.Ok
  lock : Hex.decode u.lockScript = .ok o.lock
  redeem : KeyRedeem u o
  required : h.nRequired = 0
  filled : ∃ a, h.normal = some ⟨a, sty, ⟨some sig, some pub⟩⟩
  sig : IsSig sty sig der
  pub : pub.length = 33

/-- The row of a key in a record: empty, or with a signature by this key. -/
def multiRow (sty : UInt8) (key : Bytes) : Option Bytes → MultiTx
  | none => ⟨Hex.encode key, sty, ⟨none, none⟩⟩
  | some sig => ⟨Hex.encode key, sty, ⟨some sig, some key⟩⟩

/-- What the caller passes for an input that spends an output with a multi-signature script: `sigs` has a place for each key, at least `m` of
which hold signatures; `ders` are the first `m` of them in DER form. -/
structure SignedMulti (sty : UInt8) (u : TxUnlock) (h : TxHash) (m : Nat) (keys : List Bytes) (sigs : List (Option Bytes)) (ders : List Bytes) : Prop where
  lock : ∃ k : Bytes, k.length = 20 ∧ Hex.decode u.lockScript = .ok (p2shScript k)
  redeem : Hex.decode u.redeemScript = .ok (multisigScript m keys)
  pos : 1 ≤ m
  le : m ≤ keys.length
  few : keys.length ≤ 15
  keysLen : ∀ k ∈ keys, k.length = 33
  required : h.nRequired = UInt8.ofNat m
  length : sigs.length = keys.length
  filled : h.multi = List.zipWith (multiRow sty) keys sigs
  enough : m ≤ (sigs.filterMap id).length
  sizes : ∀ s ∈ sigs.filterMap id, s.length = 64
  dersOk : List.Forall₂ (IsSig sty) ((sigs.filterMap id).take m) ders

/-- What the caller passes for one input, and how the input is to be unlocked. Outputs that need a witness need the segregated witness flag; with
it, multi-signature scripts are those of witness programs. -/
inductive Fills (sty : UInt8) (segwitOn : Bool) : TxUnlock → TxHash → Unlocking → Prop
  | one {u h o sig pub der} : SignedOne sty u h o sig pub der → (o.isWitness = true → segwitOn = true) → Fills sty segwitOn u h (.one o der pub)
  | multi {u h m keys sigs ders} : SignedMulti sty u h m keys sigs ders → segwitOn = false →
      Fills sty segwitOn u h (.multi ders (multisigScript m keys))
  | witnessMulti {u h m keys sigs ders} : SignedMulti sty u h m keys sigs ders → segwitOn = true →
      Fills sty segwitOn u h (.witnessMulti ders (multisigScript m keys))

/-- One input: its unlock data, the record of its signatures, how it is to be unlocked. -/
structure Entry where
  unlock : TxUnlock
  hash : TxHash
  expect : Unlocking

/-! ### Scripts -/

variable {sty : UInt8}

theorem encodeSig_isSig {sig der : Bytes} (h : IsSig sty sig der) : encodeSig sig sty = .ok (push der) := by
  obtain ⟨h1, h2, h3, R, S, dR, dS, rfl⟩ := h
  obtain ⟨R', S', dR', dS', _, _, he⟩ := C24_encode_canonical sig sty h1 h2 h3
  rw [he, Btc.IsDerInt.unique dR dR', Btc.IsDerInt.unique dS dS']

theorem encodeToScript_one {h : TxHash} {a sig pub der redeem : Bytes} {seg : Bool} (hr : h.nRequired = 0)
    (hn : h.normal = some ⟨a, sty, ⟨some sig, some pub⟩⟩) (hs : IsSig sty sig der) (hp : pub.length = 33) :
    encodeToScript h redeem seg = .ok (push der ++ push pub) := by
  unfold encodeToScript
  simp only [hr, if_true, hn, Option.getD_some]
  rw [if_neg (by simp [hs.1]), if_neg (by simp [hp])]
  unfold encodeSigPub
  rw [encodeSig_isSig hs]
  rfl

theorem countSigs_rows : ∀ (keys : List Bytes) (sigs : List (Option Bytes)) (c : Nat), sigs.length = keys.length →
    (∀ k ∈ keys, k.length = 33) → (∀ s ∈ sigs.filterMap id, s.length = 64) →
    countSigs (List.zipWith (multiRow sty) keys sigs) (UInt8.ofNat c) = .ok (UInt8.ofNat (c + (sigs.filterMap id).length))
  | [], [], c, _, _, _ => by simp [countSigs]
  | [], _ :: _, c, h, _, _ => by simp at h
  | _ :: _, [], c, h, _, _ => by simp at h
  | k :: keys, s :: sigs, c, hl, hk, hs => by
    cases s with
    | none =>
      have ih := countSigs_rows keys sigs c (by simpa using hl) (fun x hx => hk x (by simp [hx])) (by simpa using hs)
      simp only [List.zipWith_cons_cons, multiRow, countSigs, and_self, if_true]
      rw [ih]
      simp
    | some s =>
      simp only [List.filterMap_cons, id] at hs
      have ih := countSigs_rows keys sigs (c + 1) (by simpa using hl) (fun x hx => hk x (by simp [hx])) (fun x hx => hs x (by
        simp only [List.mem_cons]; exact Or.inr hx))
      simp only [List.zipWith_cons_cons, multiRow, countSigs]
      rw [if_neg (by simp), if_neg (by simp [hk k (by simp), hs s (by simp)])]
      rw [show UInt8.ofNat c + 1 = UInt8.ofNat (c + 1) by simp [UInt8.ofNat_add], ih]
      simp [Nat.add_assoc, Nat.add_comm 1]

theorem appendSigs_rows : ∀ (keys : List Bytes) (sigs : List (Option Bytes)) (c n : Nat) (ders : List Bytes), sigs.length = keys.length →
    1 ≤ n → c + n ≤ 15 → n ≤ (sigs.filterMap id).length → List.Forall₂ (IsSig sty) ((sigs.filterMap id).take n) ders →
    appendSigs (UInt8.ofNat (c + n)) (List.zipWith (multiRow sty) keys sigs) (UInt8.ofNat c) = .ok (ders.map push).flatten
  | [], [], c, n, ders, _, h1, _, h2, _ => by simp at h2; omega
  | [], _ :: _, _, _, _, h, _, _, _, _ => by simp at h
  | _ :: _, [], _, _, _, h, _, _, _, _ => by simp at h
  | k :: keys, s :: sigs, c, n, ders, hl, h1, h15, hn, hd => by
    cases s with
    | none =>
      simp only [List.zipWith_cons_cons, multiRow, appendSigs]
      exact appendSigs_rows keys sigs c n ders (by simpa using hl) h1 h15 (by simpa using hn) (by simpa using hd)
    | some s =>
      simp only [List.filterMap_cons, id] at hd hn
      obtain ⟨n, rfl⟩ : ∃ j, n = j + 1 := ⟨n - 1, by omega⟩
      rw [List.take_succ_cons] at hd
      cases hd with
      | cons hd1 hd2 =>
        rename_i d ds
        simp only [List.zipWith_cons_cons, multiRow, appendSigs]
        rw [encodeSig_isSig hd1, Res.bind_ok]
        by_cases hz : n = 0
        · subst hz
          rw [if_pos (by simp [UInt8.ofNat_add])]
          simp only [List.take_zero, List.forall₂_nil_left_iff] at hd2
          subst hd2
          simp
        · rw [if_neg]
          · have ih := appendSigs_rows keys sigs (c + 1) n ds (by simpa using hl) (by omega) (by omega) (by simpa using hn) hd2
            rw [show UInt8.ofNat c + 1 = UInt8.ofNat (c + 1) by simp [UInt8.ofNat_add],
              show c + (n + 1) = c + 1 + n by omega, ih]
            simp
          · intro h
            have := congrArg UInt8.toNat h
            simp [UInt8.toNat_add] at this
            omega

theorem multisig_length {m : Nat} {keys : List Bytes} (hk : ∀ k ∈ keys, k.length = 33) :
    (multisigScript m keys).length = 34 * keys.length + 3 := by
  have hlen : ((keys.map push).flatten).length = 34 * keys.length := by
    rw [flatten_length_map push (fun _ => 34) keys (fun k hkm => by simp [push, hk k hkm])]
    simp only [List.map_const', List.sum_replicate_nat, Nat.mul_comm]
  simp [multisigScript, hlen]

theorem isSig_der {sig der : Bytes} (h : IsSig sty sig der) : ∃ R S, R.length ≤ 33 ∧ S.length ≤ 33 ∧ 1 ≤ R.length ∧ 1 ≤ S.length ∧
    IsDerInt R (beNat (sig.take 32)) ∧ IsDerInt S (beNat (sig.drop 32)) ∧ der = derSig R S ++ [sty] := by
  obtain ⟨h1, h2, h3, R, S, dR, dS, rfl⟩ := h
  obtain ⟨R', S', dR', dS', l1, l2, he⟩ := C24_encode_canonical sig sty h1 h2 h3
  have e1 := Btc.IsDerInt.unique dR dR'
  have e2 := Btc.IsDerInt.unique dS dS'
  subst e1 e2
  exact ⟨R, S, l1, l2, Btc.IsDerInt.length_pos dR, Btc.IsDerInt.length_pos dS, dR, dS, rfl⟩

theorem isSig_length {sig der : Bytes} (h : IsSig sty sig der) : der.length ≤ 73 ∧ 9 ≤ der.length := by
  obtain ⟨R, S, l1, l2, l3, l4, _, _, rfl⟩ := isSig_der h
  simp [derSig]; omega

theorem ders_length {l ders : List Bytes} (h : List.Forall₂ (IsSig sty) l ders) : ((ders.map push).flatten).length ≤ 74 * l.length := by
  induction h with
  | nil => simp
  | cons h1 _ ih =>
    have := (isSig_length h1).1
    simp [push] at ih ⊢
    omega

/-- What is in the record becomes the unlocking script, or the part of the witness behind its count. -/
theorem encodeToScript_multi {u : TxUnlock} {h : TxHash} {m : Nat} {keys : List Bytes} {sigs : List (Option Bytes)} {ders : List Bytes}
    (s : SignedMulti sty u h m keys sigs ders) :
    encodeToScript h (multisigScript m keys) false =
        .ok (varBytes (0x00 :: ((ders.map push).flatten ++ pushData (multisigScript m keys)))) ∧
      encodeToScript h (multisigScript m keys) true = .ok (0x00 :: ((ders.map push).flatten ++ push (multisigScript m keys))) := by
  have h1 := s.pos
  have h2 := s.le
  have h3 := s.few
  have hlen := multisig_length (m := m) s.keysLen
  have hcnt := countSigs_rows (sty := sty) keys sigs 0 s.length s.keysLen s.sizes
  have happ := appendSigs_rows keys sigs 0 m ders s.length h1 (by omega) s.enough s.dersOk
  simp only [Nat.zero_add] at hcnt happ
  have hcntle : (sigs.filterMap id).length ≤ keys.length := by
    rw [← s.length]; exact List.length_filterMap_le _ _
  have hn0 : UInt8.ofNat m ≠ 0 := u8_ofNat_ne0 (by omega) h1
  have hge : ¬ (UInt8.ofNat (sigs.filterMap id).length < UInt8.ofNat m) := by
    intro hc
    have : (UInt8.ofNat (sigs.filterMap id).length).toNat < (UInt8.ofNat m).toNat := hc
    rw [u8_len (by omega), u8_len (by omega)] at this
    have := s.enough
    omega
  have hne : multisigScript m keys ≠ [] := by intro hc; rw [hc] at hlen; simp at hlen
  have hd : ((ders.map push).flatten).length ≤ 74 * 15 := by
    refine le_trans (ders_length s.dersOk) ?_
    simp; omega
  constructor
  · unfold encodeToScript
    rw [s.required, if_neg hn0, s.filled, show (0 : UInt8) = UInt8.ofNat 0 from rfl, hcnt, Res.bind_ok, if_neg hge, if_neg hne]
    simp only [Bool.not_false, if_true]
    have hp : (if (multisigScript m keys).length < 0x4c then Res.ok (UInt8.ofNat (multisigScript m keys).length :: multisigScript m keys)
           else if (multisigScript m keys).length ≤ 0xff then .ok (0x4c :: UInt8.ofNat (multisigScript m keys).length :: multisigScript m keys)
           else if (multisigScript m keys).length ≤ 0xffff then .ok (0x4d :: (leBytes 2 (multisigScript m keys).length ++ multisigScript m keys))
           else .err) = .ok (pushData (multisigScript m keys)) := by
      unfold pushData
      split
      · rfl
      · split
        · rfl
        · rw [if_pos (by omega)]
    rw [hp, Res.bind_ok, happ, Res.bind_ok]
    have hpl : (pushData (multisigScript m keys)).length ≤ 516 := by
      unfold pushData
      split
      · simp; omega
      · split <;> simp <;> omega
    unfold varBytes compactSize
    split
    · rename_i hc
      rfl
    · rename_i hc
      rw [if_pos (by simp only [List.length_cons, List.length_append]; omega)]; rfl
  · unfold encodeToScript
    rw [s.required, if_neg hn0, s.filled, show (0 : UInt8) = UInt8.ofNat 0 from rfl, hcnt, Res.bind_ok, if_neg hge, if_neg hne]
    simp only [Bool.not_true, Bool.false_eq_true, if_false, Res.bind_ok]
    rw [happ, Res.bind_ok]
    rfl

/-! ### The inputs -/

/-- An input without unlocking script, and unlocked. -/
def baseIn (i : RawIn) : TxIn := ⟨.empty, i.prev, leBytes 4 i.index, [], [], leBytes 4 i.sequence, []⟩

def signedIn (sha : Bytes → Bytes) (i : RawIn) (x : Unlocking) : TxIn :=
  match x with
  | .one (.keyHash _) der pub => { baseIn i with inType := .p2pkh, scriptSig := push der ++ push pub }
  | .one (.nested _ k) der pub => { baseIn i with inType := .p2wpkh, scriptPub := witnessV0Script k, scriptSig := push der ++ push pub }
  | .one (.native _) der pub => { baseIn i with inType := .bech32, scriptSig := push der ++ push pub }
  | .multi ders r => { baseIn i with inType := .multi, scriptMulti := varBytes ((Unlocking.multi ders r).script sha) }
  | .witnessMulti ders r =>
    { baseIn i with
      inType := .multi
      scriptPub := [0x23, 0x22, 0x00, 0x20] ++ sha r
      scriptMulti := 0x00 :: ((ders.map push).flatten ++ push r) }

theorem checkMulti {u : TxUnlock} {h : TxHash} {m : Nat} {keys : List Bytes} {sigs : List (Option Bytes)} {ders : List Bytes}
    (s : SignedMulti sty u h m keys sigs ders) : ∃ l, checkScriptType u.lockScript u.redeemScript = .ok (l, multisigScript m keys, .multi) := by
  obtain ⟨k, hk, hl⟩ := s.lock
  have h1 := s.pos
  have h2 := s.le
  exact ⟨_, check_multi hl hk s.redeem (by rw [multisig_length s.keysLen]; omega) (multisig_last m keys)⟩

theorem insertLoop_fills {H : Hashes} {seg sw : Bool} {hashes : List TxHash} (h0 : seg = false → sw = false) :
    ∀ (ins : List RawIn) (l : List Entry) (idx : Nat), l.length = ins.length → (∀ e ∈ l, Fills sty seg e.unlock e.hash e.expect) →
    (∀ e ∈ l, e.expect.stack ≠ [] → sw = true) → (∀ j e, l[j]? = some e → hashes[idx + j]? = some e.hash) →
    insertLoop H seg sw hashes idx (ins.map baseIn) (l.map Entry.unlock) =
      .ok (some (List.zipWith (signedIn (H.hash .sha256)) ins (l.map Entry.expect)))
  | [], [], idx, _, _, _, _ => by simp [insertLoop]
  | [], _ :: _, idx, hl, _, _, _ => by simp at hl
  | _ :: _, [], idx, hl, _, _, _ => by simp at hl
  | i :: ins, e :: l, idx, hl, hf, hw, hh => by
    have hidx : index hashes idx = .ok e.hash := by
      have := hh 0 e (by simp)
      simp only [Nat.add_zero] at this
      obtain ⟨hlt, he⟩ := List.getElem?_eq_some_iff.mp this
      rw [index_ok hlt, he]
    have ih := insertLoop_fills (H := H) (hashes := hashes) h0 ins l (idx + 1) (by simpa using hl) (fun x hx => hf x (by simp [hx]))
      (fun x hx => hw x (by simp [hx])) (fun j x hj => by
        have := hh (j + 1) x (by simpa using hj)
        rwa [show idx + 1 + j = idx + (j + 1) by omega])
    have hfe := hf e (by simp)
    have hwe := hw e (by simp)
    obtain ⟨u, h, x⟩ := e
    simp only at hfe hwe hidx
    simp only [List.map_cons, List.zipWith_cons_cons]
    rw [insertLoop]
    cases hfe with
    | one so hseg =>
      rename_i o sig pub der
      obtain ⟨ok, lock, redeem, required, ⟨a, filled⟩, hsig, hpub⟩ := so
      cases o with
      | keyHash k =>
        rw [show u.redeemScript = [] from redeem, check_p2pkh lock ok]
        simp only [hidx, Res.bind_ok]
        rw [encodeToScript_one required filled hsig hpub, Res.bind_ok, ih]
        rfl
      | nested g k =>
        rw [check_p2wpkh lock ok.1 redeem ok.2]
        have hs : seg = true := hseg rfl
        subst hs
        simp only [Bool.not_true, Bool.false_eq_true, if_false, hidx, Res.bind_ok]
        rw [encodeToScript_one required filled hsig hpub, Res.bind_ok, ih]
        rfl
      | native k =>
        rw [show u.redeemScript = [] from redeem, check_bech32 lock ok]
        have hs : seg = true := hseg rfl
        subst hs
        simp only [Bool.not_true, Bool.false_eq_true, if_false, hidx, Res.bind_ok]
        rw [encodeToScript_one required filled hsig hpub, Res.bind_ok, ih]
        rfl
    | multi sm hseg =>
      obtain ⟨lk, hc⟩ := checkMulti sm
      rw [hc]
      subst hseg
      simp only [hidx, Res.bind_ok, h0 rfl, Bool.false_eq_true, if_false]
      rw [(encodeToScript_multi sm).1, Res.bind_ok]
      rw [h0 rfl] at ih
      rw [ih]
      rfl
    | witnessMulti sm hseg =>
      obtain ⟨lk, hc⟩ := checkMulti sm
      rw [hc]
      subst hseg
      have hsw : sw = true := hwe (by simp [Unlocking.stack])
      simp only [hidx, Res.bind_ok, hsw, if_true]
      rw [(encodeToScript_multi sm).2, Res.bind_ok]
      rw [hsw] at ih
      rw [ih]
      rfl

theorem isSegwit_fills {seg : Bool} : ∀ (l : List Entry), (∀ e ∈ l, Fills sty seg e.unlock e.hash e.expect) →
    isSegwit.go seg (l.map Entry.unlock) = .ok (l.any (fun e => e.expect.stack ≠ []))
  | [], _ => rfl
  | e :: l, hf => by
    have ih := isSegwit_fills l (fun x hx => hf x (by simp [hx]))
    have hfe := hf e (by simp)
    obtain ⟨u, h, x⟩ := e
    simp only at hfe
    simp only [List.map_cons, List.any_cons]
    rw [isSegwit.go]
    cases hfe with
    | one so hseg =>
      rename_i o sig pub der
      obtain ⟨ok, lock, redeem, -⟩ := so
      cases o with
      | keyHash k =>
        rw [show u.redeemScript = [] from redeem, check_p2pkh lock ok, Res.bind_ok]
        simp only
        rw [if_neg (by simp), ih]
        simp [Unlocking.stack, KeyOutput.stack]
      | nested g k =>
        rw [check_p2wpkh lock ok.1 redeem ok.2, Res.bind_ok]
        simp [Unlocking.stack, KeyOutput.stack]
      | native k =>
        rw [show u.redeemScript = [] from redeem, check_bech32 lock ok, Res.bind_ok]
        simp [Unlocking.stack, KeyOutput.stack]
    | multi sm hseg =>
      obtain ⟨lk, hc⟩ := checkMulti sm
      rw [hc, Res.bind_ok]
      simp only
      rw [if_neg (by simp [hseg]), ih]
      simp [Unlocking.stack]
    | witnessMulti sm hseg =>
      obtain ⟨lk, hc⟩ := checkMulti sm
      rw [hc, Res.bind_ok]
      simp [hseg, Unlocking.stack]

/-! ### The serialisation -/

theorem varBytes_push (d : Bytes) (h : d.length < 253) : varBytes d = push d := by
  rw [varBytes, compactSize_small h]; rfl

theorem encodeIn_fills {H : Hashes} {seg : Bool} {u : TxUnlock} {h : TxHash} {x : Unlocking} (hf : Fills sty seg u h x) (i : RawIn)
    (hi : i.prev.length = 32) :
    encodeIn seg (signedIn (H.hash .sha256) i x) = .ok (RawIn.ser { i with script := x.script (H.hash .sha256) }) := by
  have hb : ∀ y, unlockBytes seg (signedIn (H.hash .sha256) i x) = y →
      encodeIn seg (signedIn (H.hash .sha256) i x) = .ok (i.prev ++ leBytes 4 i.index ++ y ++ leBytes 4 i.sequence) := by
    intro y hy
    have e : (signedIn (H.hash .sha256) i x).txid = i.prev ∧ (signedIn (H.hash .sha256) i x).vout = leBytes 4 i.index ∧
        (signedIn (H.hash .sha256) i x).sequence = leBytes 4 i.sequence := by
      unfold signedIn
      split <;> simp [baseIn]
    unfold encodeIn
    rw [e.1, e.2.1, e.2.2, hy, if_neg (by simp [hi])]
  rw [hb (varBytes (x.script (H.hash .sha256)))]
  · rfl
  cases hf with
  | one so hseg =>
    rename_i o sig pub der
    obtain ⟨ok, -, -, -, -, hsig, hpub⟩ := so
    have hdl := (isSig_length hsig).1
    cases o with
    | keyHash k =>
      show push (push der ++ push pub) = varBytes (push der ++ push pub)
      rw [varBytes_push]
      simp [push, hpub]; omega
    | nested g k =>
      have hk : k.length = 20 := ok.2
      show 0x17 :: 0x16 :: witnessV0Script k = varBytes (push (witnessV0Script k))
      rw [varBytes_push _ (by simp [push, witnessV0Script, hk])]
      simp [push, witnessV0Script, hk]
    | native k => rfl
  | multi sm hseg =>
    subst hseg
    rfl
  | witnessMulti sm hseg =>
    subst hseg
    have h32 := H.size .sha256
    rename_i m keys sigs ders
    have := h32 (multisigScript m keys)
    simp only [Alg.size] at this
    show [0x23, 0x22, 0x00, 0x20] ++ H.hash .sha256 (multisigScript m keys) = varBytes (push (witnessV0Script (H.hash .sha256 (multisigScript m keys))))
    rw [varBytes_push _ (by simp [push, witnessV0Script, this])]
    simp [push, witnessV0Script, this]

/-- The witness of an input. The item count for a multi-signature script is always written as 4, the length of the script in one byte. -/
def Unlocking.count (x : Unlocking) : Bytes :=
  match x with
  | .witnessMulti ders r => 0x04 :: 0x00 :: ((ders.map push).flatten ++ push r)
  | _ => stackBytes x.stack

theorem ders_var {l ders : List Bytes} (h : List.Forall₂ (IsSig sty) l ders) : ders.map varBytes = ders.map push := by
  induction h with
  | nil => rfl
  | cons h1 _ ih =>
    have := (isSig_length h1).1
    rw [List.map_cons, List.map_cons, ih, varBytes_push _ (Nat.lt_of_le_of_lt this (by decide))]

theorem encodeWitness_fills {H : Hashes} {seg : Bool} {u : TxUnlock} {h : TxHash} {x : Unlocking} (hf : Fills sty seg u h x) (i : RawIn)
    (hseg : seg = true) : encodeWitness (signedIn (H.hash .sha256) i x) = .ok (Unlocking.count x) := by
  cases hf with
  | one so hw =>
    rename_i o sig pub der
    obtain ⟨ok, -, -, -, -, hsig, hpub⟩ := so
    have hdl := (isSig_length hsig).1
    have e : stackBytes [der, pub] = 0x02 :: (push der ++ push pub) := by
      simp [stackBytes, compactSize, varBytes_push der (by omega), varBytes_push pub (by omega)]
    cases o with
    | keyHash k => rfl
    | nested g k => exact (congrArg Res.ok e).symm
    | native k => exact (congrArg Res.ok e).symm
  | multi sm h2 => rw [hseg] at h2; simp at h2
  | witnessMulti sm h2 => rfl

/-- A witness in the standard form: two signatures and a script below 253 bytes, if it is for a multi-signature script. -/
def Unlocking.Two (x : Unlocking) : Prop := ∀ ders r, x = .witnessMulti ders r → ders.length = 2 ∧ r.length < 253

theorem count_two {seg : Bool} {u : TxUnlock} {h : TxHash} {x : Unlocking} (hf : Fills sty seg u h x) :
    (Unlocking.count x).length ≤ (stackBytes x.stack).length ∧ (Unlocking.count x = stackBytes x.stack ↔ Unlocking.Two x) := by
  cases hf with
  | one => exact ⟨Nat.le_refl _, fun _ _ _ h => by simp at h, fun _ => rfl⟩
  | multi => exact ⟨Nat.le_refl _, fun _ _ _ h => by simp at h, fun _ => rfl⟩
  | witnessMulti sm hseg =>
    rename_i m keys sigs ders
    have hd := ders_var sm.dersOk
    have hdl : ders.length = m := by
      have := (List.forall₂_iff_get.mp sm.dersOk).1
      rw [← this, List.length_take]
      have := sm.enough
      omega
    have h1 := sm.le
    have h2 := sm.few
    generalize hr : multisigScript m keys = r
    have e : stackBytes ([] :: ders ++ [r]) = UInt8.ofNat (m + 2) :: 0x00 :: ((ders.map push).flatten ++ varBytes r) := by
      unfold stackBytes
      have hn : ([] :: ders ++ [r]).length = m + 2 := by simp [hdl]
      rw [hn, compactSize_small (by omega)]
      simp [hd, varBytes, compactSize]
    have ev : (varBytes r).length = (compactSize r.length).length + r.length := by simp [varBytes]
    have ep : (push r).length = 1 + r.length := by simp [push]; omega
    have hcs := compactSize_length r.length
    constructor
    · show (0x04 :: 0x00 :: ((ders.map push).flatten ++ push r)).length ≤ (stackBytes ([] :: ders ++ [r])).length
      rw [e]
      simp only [List.length_cons, List.length_append, ev, ep]
      omega
    · show 0x04 :: 0x00 :: ((ders.map push).flatten ++ push r) = stackBytes ([] :: ders ++ [r]) ↔ _
      rw [e]
      constructor
      · intro h ders' r' hx
        simp only [Unlocking.witnessMulti.injEq] at hx
        obtain ⟨rfl, rfl⟩ := hx
        simp only [List.cons.injEq, true_and] at h
        have a1 := congrArg UInt8.toNat h.1
        have a2 := congrArg List.length (List.append_cancel_left h.2)
        rw [u8_len (by omega)] at a1
        rw [ev, ep] at a2
        refine ⟨by rw [hdl]; simp at a1; omega, ?_⟩
        by_contra hc
        have := hcs.2 (by omega)
        omega
      · intro h
        obtain ⟨k1, k2⟩ := h ders r rfl
        rw [varBytes_push r k2, ← hdl, k1]
        rfl

theorem flatten_inj {α : Type} {f g : α → Bytes} : ∀ (l : List α), (∀ x ∈ l, (f x).length ≤ (g x).length) →
    (l.map f).flatten = (l.map g).flatten → ∀ x ∈ l, f x = g x
  | [], _, _ => by simp
  | y :: l, h, e => by
    have hle : ∀ l : List α, (∀ x ∈ l, (f x).length ≤ (g x).length) → ((l.map f).flatten).length ≤ ((l.map g).flatten).length := by
      intro l
      induction l with
      | nil => simp
      | cons z l ih =>
        intro h
        have h1 := h z (by simp)
        have h2 := ih (fun x hx => h x (by simp [hx]))
        simp only [List.map_cons, List.flatten_cons, List.length_append]
        omega
    have h1 := h y (by simp)
    have h2 := hle l (fun x hx => h x (by simp [hx]))
    simp only [List.map_cons, List.flatten_cons] at e
    have h3 := congrArg List.length e
    simp only [List.length_append] at h3
    obtain ⟨e1, e2⟩ := List.append_inj e (by omega)
    intro x hx
    rcases List.mem_cons.mp hx with rfl | hx
    · exact e1
    · exact flatten_inj l (fun x hx => h x (by simp [hx])) e2 x hx

/-- Pairing up inputs with the entries, in the form in which the results are stated. -/
theorem zip_map_expect (f : RawIn → Unlocking → Bytes) : ∀ (ins : List RawIn) (l : List Entry),
    (ins.zip l).map (fun p => f p.1 p.2.expect) = List.zipWith f ins (l.map Entry.expect)
  | [], _ => rfl
  | _ :: _, [] => rfl
  | i :: ins, e :: l => by simp [zip_map_expect f ins l]

theorem concatAll_zip {f : TxIn → Res Bytes} {g : RawIn → Unlocking → TxIn} {k : RawIn → Unlocking → Bytes} : ∀ (ins : List RawIn) (l : List Entry),
    (∀ p ∈ ins.zip l, f (g p.1 p.2.expect) = .ok (k p.1 p.2.expect)) →
    concatAll f (List.zipWith g ins (l.map Entry.expect)) = .ok (List.zipWith k ins (l.map Entry.expect)).flatten
  | [], _, _ => rfl
  | _ :: _, [], _ => rfl
  | i :: ins, e :: l, h => by
    simp only [List.map_cons, List.zipWith_cons_cons]
    rw [concatAll, h (i, e) (by simp), Res.bind_ok, concatAll_zip ins l (fun p hp => h p (by simp [hp])), Res.bind_ok]
    rfl

/-- What is written for a transaction unlocked in this way. -/
def unlockedBytes (sha : Bytes → Bytes) (t : RawTx) (l : List Entry) : Bytes :=
  leBytes 4 t.version ++ (if l.any (fun e => e.expect.stack ≠ []) then [0x00, 0x01] else []) ++ compactSize t.ins.length ++
    ((t.withScripts ((l.map Entry.expect).map (Unlocking.script sha))).ins.map RawIn.ser).flatten ++ compactSize t.outs.length ++
    (t.outs.map RawOut.ser).flatten ++
    (if l.any (fun e => e.expect.stack ≠ []) then (l.map fun e => Unlocking.count e.expect).flatten else []) ++ leBytes 4 t.lockTime

theorem zipWith_right {α : Type} (f : Unlocking → α) : ∀ (ins : List RawIn) (l : List Entry), l.length = ins.length →
    List.zipWith (fun _ x => f x) ins (l.map Entry.expect) = l.map fun e => f e.expect
  | [], [], _ => rfl
  | [], _ :: _, h => by simp at h
  | _ :: _, [], h => by simp at h
  | i :: ins, e :: l, h => by simp [zipWith_right f ins l (by simpa using h)]

theorem withScripts_ser (sha : Bytes → Bytes) : ∀ (ins : List RawIn) (l : List Entry),
    (List.zipWith (fun i s => { i with script := s }) ins ((l.map Entry.expect).map (Unlocking.script sha))).map RawIn.ser =
      List.zipWith (fun i x => RawIn.ser { i with script := Unlocking.script sha x }) ins (l.map Entry.expect)
  | [], _ => rfl
  | _ :: _, [] => rfl
  | i :: ins, e :: l => by simpa using withScripts_ser sha ins l

theorem stack_seg {seg : Bool} {l : List Entry} (hf : ∀ e ∈ l, Fills sty seg e.unlock e.hash e.expect)
    (h : l.any (fun e => e.expect.stack ≠ []) = true) : seg = true := by
  rw [List.any_eq_true] at h
  obtain ⟨e, he, hs⟩ := h
  have := hf e he
  simp only [ne_eq, decide_eq_true_eq] at hs
  generalize e.expect = x at this hs
  cases this with
  | one so hseg =>
    rename_i o _ _ _
    cases o with
    | keyHash k => simp [Unlocking.stack, KeyOutput.stack] at hs
    | nested => exact hseg rfl
    | native => exact hseg rfl
  | multi => simp [Unlocking.stack] at hs
  | witnessMulti _ h => exact h

theorem encodeTx_fills {H : Hashes} {seg : Bool} {t : RawTx} (hu : Unsigned t) (l : List Entry) (hl : l.length = t.ins.length)
    (hf : ∀ e ∈ l, Fills sty seg e.unlock e.hash e.expect) :
    encodeTx seg { ofRaw t with
      witness := l.any (fun e => e.expect.stack ≠ [])
      vins := List.zipWith (signedIn (H.hash .sha256)) t.ins (l.map Entry.expect) } = .ok (unlockedBytes (H.hash .sha256) t l) := by
  have h1 := hu.insPos
  have h2 := hu.insLt
  have h3 := hu.outsPos
  have h4 := hu.outsLt
  have hmem : ∀ p ∈ t.ins.zip l, p.1 ∈ t.ins ∧ p.2 ∈ l := fun p hp => List.of_mem_zip (a := p.1) (b := p.2) hp
  have e1 := concatAll_zip (f := encodeIn seg) (g := signedIn (H.hash .sha256))
    (k := fun i x => RawIn.ser { i with script := Unlocking.script (H.hash .sha256) x }) t.ins l (fun p hp =>
      encodeIn_fills (hf p.2 (hmem p hp).2) p.1 (hu.ins p.1 (hmem p hp).1).1)
  have hlen : (List.zipWith (signedIn (H.hash .sha256)) t.ins (l.map Entry.expect)).length = t.ins.length := by simp [hl]
  unfold encodeTx
  simp only
  rw [if_neg, e1, Res.bind_ok, concatAll_ok (g := fun o => RawOut.ser ⟨leNat o.amount, o.lockScript⟩), Res.bind_ok, hlen]
  · have e3 : ((ofRaw t).vouts.map fun o => RawOut.ser ⟨leNat o.amount, o.lockScript⟩) = t.outs.map RawOut.ser := by
      simp only [ofRaw, List.map_map]
      apply List.map_congr_left
      intro o ho
      simp only [Function.comp]
      rw [leNat_leBytes_of_lt (by simpa using (hu.outs o ho).1)]
    rw [e3]
    have e4 : (ofRaw t).vouts.length = t.outs.length := by simp [ofRaw]
    rw [e4]
    unfold unlockedBytes RawTx.withScripts
    simp only [withScripts_ser, compactSize_small h2, compactSize_small h4]
    by_cases hw : l.any (fun e => e.expect.stack ≠ []) = true
    · have hs := stack_seg hf hw
      have e2 := concatAll_zip (f := encodeWitness) (g := signedIn (H.hash .sha256)) (k := fun _ x => Unlocking.count x) t.ins l (fun p hp =>
        encodeWitness_fills (hf p.2 (hmem p hp).2) p.1 hs)
      rw [zipWith_right _ _ _ hl] at e2
      simp only [hw, if_true]
      rw [e2, Res.bind_ok]
      rfl
    · simp only [hw, Bool.false_eq_true, if_false, Res.bind_ok]
      rfl
  · intro o ho
    simp only [ofRaw, List.mem_map] at ho
    obtain ⟨r, hr, rfl⟩ := ho
    obtain ⟨k1, k2, k3⟩ := hu.outs r hr
    unfold encodeOut
    rw [if_neg (by simp; intro hc; rw [hc] at k2; simp at k2)]
    simp only [RawOut.ser, varBytes, leNat_leBytes_of_lt (show r.value < 256 ^ 8 by simpa using k1), compactSize_small k3, List.append_assoc]
  · rintro (h | h | h | h)
    · rw [h] at hlen; simp at hlen; omega
    · have := congrArg List.length h
      simp [ofRaw] at this
      rw [this] at h3; simp at h3
    · simp [ofRaw] at h
    · simp [ofRaw] at h

theorem unlockedBytes_standard {sha : Bytes → Bytes} {t : RawTx} {l : List Entry} (hl : l.length = t.ins.length) {seg : Bool}
    (hf : ∀ e ∈ l, Fills sty seg e.unlock e.hash e.expect) :
    unlockedBytes sha t l = t.unlocked sha (l.map Entry.expect) ↔ ∀ e ∈ l, Unlocking.Two e.expect := by
  have hu : t.unlocked sha (l.map Entry.expect) = leBytes 4 t.version ++ (if l.any (fun e => e.expect.stack ≠ []) then [0x00, 0x01] else []) ++
      compactSize t.ins.length ++
      ((t.withScripts ((l.map Entry.expect).map (Unlocking.script sha))).ins.map RawIn.ser).flatten ++ compactSize t.outs.length ++
      (t.outs.map RawOut.ser).flatten ++
      (if l.any (fun e => e.expect.stack ≠ []) then (l.map fun e => stackBytes e.expect.stack).flatten else []) ++ leBytes 4 t.lockTime := by
    unfold RawTx.unlocked
    rw [List.any_map]
    by_cases hw : l.any (fun e => e.expect.stack ≠ []) = true
    · simp only [Function.comp_def, hw, if_true]
      simp [RawTx.serWitness, RawTx.withScripts, hl, Function.comp_def]
    · simp only [Function.comp_def, hw, Bool.false_eq_true, if_false]
      simp [RawTx.ser, RawTx.withScripts, hl]
  rw [hu]
  constructor
  · intro h e he
    have h := List.append_cancel_left (List.append_cancel_right h)
    by_cases hw : l.any (fun e => e.expect.stack ≠ []) = true
    · simp only [hw, if_true] at h
      exact (count_two (hf e he)).2.mp (flatten_inj l (fun x hx => (count_two (hf x hx)).1) h e he)
    · intro ders r hx
      exfalso
      apply hw
      rw [List.any_eq_true]
      exact ⟨e, he, by rw [hx]; simp [Unlocking.stack]⟩
  · intro h
    have : (l.map fun e => Unlocking.count e.expect) = l.map fun e => stackBytes e.expect.stack :=
      List.map_congr_left (fun e he => (count_two (hf e he)).2.mpr (h e he))
    unfold unlockedBytes
    rw [this]

theorem insert_fills (H : Hashes) (t : RawTx) (hu : Unsigned t) (l : List Entry) (hl : l.length = t.ins.length) (segwitOn : Bool)
    (hf : ∀ e ∈ l, Fills sty segwitOn e.unlock e.hash e.expect) :
    insertSignatures H (Hex.encode t.ser) (l.map Entry.hash) (l.map Entry.unlock) segwitOn =
      .ok (Hex.encode (unlockedBytes (H.hash .sha256) t l)) := by
  have h1 := hu.insPos
  have h3 := hu.outsPos
  have hne : l ≠ [] := by intro h; rw [h] at hl; simp at hl; omega
  have hsw : ∀ e ∈ l, e.expect.stack ≠ [] → l.any (fun e => e.expect.stack ≠ []) = true := by
    intro e he hs
    rw [List.any_eq_true]
    exact ⟨e, he, by simpa using hs⟩
  have h0 : segwitOn = false → l.any (fun e => e.expect.stack ≠ []) = false := by
    intro h
    by_contra hc
    have := stack_seg hf (by simpa using hc)
    rw [h] at this; simp at this
  have hins := insertLoop_fills (H := H) (hashes := l.map Entry.hash) h0 t.ins l 0 hl hf hsw (by
    intro j e hj; simp [hj])
  have hisw : isSegwit segwitOn (l.map Entry.unlock) = .ok (l.any (fun e => e.expect.stack ≠ [])) := by
    rw [← isSegwit_fills l hf]
    cases l with
    | nil => exact absurd rfl hne
    | cons e l => rfl
  unfold insertSignatures
  rw [Hex.decode_encode, Res.bind_ok, decode_unsigned hu, Res.bind_ok, if_neg]
  · rw [hisw]
    simp only
    rw [if_neg]
    · rw [show (ofRaw t).vins = t.ins.map baseIn from rfl, hins, Res.bind_ok]
      simp only
      rw [encodeTx_fills hu l hl hf, Res.bind_ok]
    · rintro ⟨hc1, hc2⟩
      rw [h0 (by simpa using hc2)] at hc1
      simp at hc1
  · rintro (h | h | h | h | h)
    · exact hne (List.map_eq_nil_iff.mp h)
    · exact hne (List.map_eq_nil_iff.mp h)
    · have := congrArg List.length h
      simp [ofRaw] at this
      rw [this] at h1; simp at h1
    · have := congrArg List.length h
      simp [ofRaw] at this
      rw [this] at h3; simp at h3
    · simp [ofRaw, hl] at h

end Btc

/-- C123, for multi-signature witnesses with two signatures and at most seven keys: for every unsigned transaction, in which each input spends a
P2PKH output, a P2WPKH output nested in P2SH or native, a P2SH multi-signature output (without the segregated witness flag) or a P2SH-P2WSH
multi-signature output (with it), `InsertSignatureIntoEmptyTransaction` returns the standard serialisation of the signed transaction: the unlocking
scripts and witness stacks of BIP 11, 16 and 141, the layout of BIP 144. Missing: `C123_witness_multisig_violated`. -/
theorem C123_insert_partial (H : Hashes) (t : RawTx) (hu : Unsigned t) (l : List Entry) (hl : l.length = t.ins.length) (segwitOn : Bool)
    (hf : ∀ e ∈ l, Fills 1 segwitOn e.unlock e.hash e.expect)
    (h2 : ∀ e ∈ l, ∀ ders r, e.expect = .witnessMulti ders r → ders.length = 2 ∧ r.length < 253) :
    insertSignatures H (Hex.encode t.ser) (l.map Entry.hash) (l.map Entry.unlock) segwitOn =
      .ok (Hex.encode (t.unlocked (H.hash .sha256) (l.map Entry.expect))) := by
  rw [insert_fills H t hu l hl segwitOn hf, (unlockedBytes_standard hl hf).mpr h2]

/-- C123 is false of all other multi-signature witnesses: with one signature or more than two, or with eight keys or more, the text
returned without an error is not the standard serialisation of the signed transaction. -/
theorem C123_witness_multisig_violated (H : Hashes) (t : RawTx) (hu : Unsigned t) (l : List Entry) (hl : l.length = t.ins.length)
    (segwitOn : Bool) (hf : ∀ e ∈ l, Fills 1 segwitOn e.unlock e.hash e.expect) (e : Entry) (he : e ∈ l) (ders : List Bytes) (r : Bytes)
    (hx : e.expect = .witnessMulti ders r) (h2 : ders.length ≠ 2 ∨ 253 ≤ r.length) :
    ∃ text, insertSignatures H (Hex.encode t.ser) (l.map Entry.hash) (l.map Entry.unlock) segwitOn = .ok text ∧
      text ≠ Hex.encode (t.unlocked (H.hash .sha256) (l.map Entry.expect)) := by
  refine ⟨_, insert_fills H t hu l hl segwitOn hf, ?_⟩
  intro hc
  have hc := Hex.decode_encode (unlockedBytes (H.hash .sha256) t l) ▸ congrArg Hex.decode hc
  rw [Hex.decode_encode, Res.ok.injEq] at hc
  have := (unlockedBytes_standard hl hf).mp hc e he ders r hx
  omega

/-! ### The hypotheses can be met -/

namespace Btc

/-- `sig11` in DER form. -/
def der11 : Bytes := derSig (List.replicate 32 1) (List.replicate 32 1) ++ [1]

theorem der11_is : IsSig 1 sig11 der11 := by
  have h : IsDerInt (List.replicate 32 1) (beNat (List.replicate 32 1)) := by
    refine ⟨rfl, by simp, ?_, ?_⟩
    · intro x hx
      have : x = 1 := by simpa using hx.symm
      subst this
      decide
    · intro y t h
      have := congrArg List.head? h
      simp at this
  exact ⟨rfl, by decide +kernel, by decide +kernel, _, _, h, h, rfl⟩

/-- A transaction with `n` inputs. -/
def demoTxN (n : Nat) : RawTx := { demoTx with ins := (List.range n).map (fun k => ⟨List.replicate 32 9, k, [], 0xffffffff⟩) }

theorem demoTxN_unsigned (n : Nat) (h1 : 1 ≤ n) (h : n < 253) : Unsigned (demoTxN n) := by
  have hd := demoTx_unsigned
  refine ⟨rfl, hd.lockTime, by simpa [demoTxN] using h1, by simpa [demoTxN] using h, hd.outsPos, hd.outsLt, ?_, hd.outs⟩
  intro i hi
  simp only [demoTxN, List.mem_map, List.mem_range] at hi
  obtain ⟨k, hk, rfl⟩ := hi
  exact ⟨rfl, by show k < 2 ^ 32; omega, rfl, by show 0xffffffff < 2 ^ 32; decide⟩

/-- A record with one signature, for the message `msg`. -/
def oneRecord (msg : Bytes) : TxHash := ⟨msg, 0, some ⟨[], 1, ⟨some sig11, some key1⟩⟩, []⟩

/-- A record with places for signatures by several keys. -/
def multiRecord (msg : Bytes) (m : Nat) (keys : List Bytes) (sigs : List (Option Bytes)) : TxHash :=
  ⟨msg, UInt8.ofNat m, none, List.zipWith (multiRow 1) keys sigs⟩

def keyHashEntry (msg : Bytes) : Entry := ⟨p2pkhUnlock (List.replicate 20 5), oneRecord msg, .one (.keyHash (List.replicate 20 5)) der11 key1⟩
def nestedEntry (msg : Bytes) : Entry := ⟨nestedUnlock, oneRecord msg, .one (.nested (List.replicate 20 5) (List.replicate 20 6)) der11 key1⟩
def nativeEntry (msg : Bytes) : Entry := ⟨wpkhUnlock, oneRecord msg, .one (.native (List.replicate 20 5)) der11 key1⟩
def witnessEntry (msg : Bytes) (m : Nat) (keys : List Bytes) (sigs : List (Option Bytes)) : Entry :=
  ⟨multiUnlock m keys, multiRecord msg m keys sigs, .witnessMulti (List.replicate m der11) (multisigScript m keys)⟩
def scriptEntry (msg : Bytes) (m : Nat) (keys : List Bytes) (sigs : List (Option Bytes)) : Entry :=
  ⟨multiUnlock m keys, multiRecord msg m keys sigs, .multi (List.replicate m der11) (multisigScript m keys)⟩

theorem multi_signed {sig der : Bytes} (hd : IsSig 1 sig der) (msg : Bytes) (m : Nat) (keys : List Bytes) (sigs : List (Option Bytes)) (h1 : 1 ≤ m) (h2 : m ≤ keys.length)
    (h3 : keys.length ≤ 15) (hk : ∀ k ∈ keys, k.length = 33) (hl : sigs.length = keys.length) (he : m ≤ (sigs.filterMap id).length)
    (hs : ∀ s ∈ sigs.filterMap id, s = sig) :
    SignedMulti 1 (multiUnlock m keys) (multiRecord msg m keys sigs) m keys sigs (List.replicate m der) where
  lock := ⟨_, rfl, Hex.decode_encode _⟩
  redeem := Hex.decode_encode _
  pos := h1
  le := h2
  few := h3
  keysLen := hk
  required := rfl
  length := hl
  filled := rfl
  enough := he
  sizes := fun s h => by rw [hs s h]; exact hd.1
  dersOk := by
    have : (sigs.filterMap id).take m = List.replicate m sig := by
      rw [List.eq_replicate_iff]
      exact ⟨by simp only [List.length_take]; omega, fun s h => hs s (List.mem_of_mem_take h)⟩
    rw [this, List.forall₂_iff_get]
    refine ⟨by simp, ?_⟩
    intro i _ _
    simpa using hd

theorem one_fills (seg : Bool) (msg : Bytes) :
    Fills 1 seg (keyHashEntry msg).unlock (keyHashEntry msg).hash (keyHashEntry msg).expect :=
  Fills.one (sig := sig11) ⟨rfl, Hex.decode_encode _, rfl, rfl, ⟨_, rfl⟩, der11_is, rfl⟩ (by intro h; cases h)

theorem nested_fills (msg : Bytes) : Fills 1 true (nestedEntry msg).unlock (nestedEntry msg).hash (nestedEntry msg).expect :=
  Fills.one (sig := sig11) ⟨⟨rfl, rfl⟩, Hex.decode_encode _, Hex.decode_encode _, rfl, ⟨_, rfl⟩, der11_is, rfl⟩ (fun _ => rfl)

theorem native_fills (msg : Bytes) : Fills 1 true (nativeEntry msg).unlock (nativeEntry msg).hash (nativeEntry msg).expect :=
  Fills.one (sig := sig11) ⟨rfl, Hex.decode_encode _, rfl, rfl, ⟨_, rfl⟩, der11_is, rfl⟩ (fun _ => rfl)

theorem demo_keys : ∀ k ∈ [key0, key1, key2], k.length = 33 := by decide

theorem demo_sigs : ∀ s ∈ [some sig11, none, some sig11].filterMap id, s = sig11 := by
  intro s hs
  simpa using hs

/-- Four inputs: a P2PKH output, nested and native P2WPKH outputs, and two signatures for three keys in a witness. -/
def fourEntries (a b c d : Bytes) : List Entry :=
  [keyHashEntry a, nestedEntry b, nativeEntry c, witnessEntry d 2 [key0, key1, key2] [some sig11, none, some sig11]]

theorem four_fills (a b c d : Bytes) : ∀ e ∈ fourEntries a b c d, Fills 1 true e.unlock e.hash e.expect := by
  intro e he
  simp only [fourEntries, List.mem_cons, List.not_mem_nil, or_false] at he
  rcases he with rfl | rfl | rfl | rfl
  · exact one_fills true a
  · exact nested_fills b
  · exact native_fills c
  · exact Fills.witnessMulti (multi_signed der11_is d 2 _ _ (by decide) (by decide) (by decide) demo_keys rfl (by decide) demo_sigs) rfl

end Btc

-- four inputs of all kinds with the segregated witness flag meet the hypotheses of `C123_insert_partial`
example : insertSignatures toyHashes (Hex.encode (demoTxN 4).ser) ((fourEntries [] [] [] []).map Entry.hash)
    ((fourEntries [] [] [] []).map Entry.unlock) true =
    .ok (Hex.encode ((demoTxN 4).unlocked (toyHashes.hash .sha256) ((fourEntries [] [] [] []).map Entry.expect))) :=
  C123_insert_partial _ _ (demoTxN_unsigned 4 (by decide) (by decide)) _ rfl true (four_fills _ _ _ _) (by
    intro e he ders r hx
    simp only [fourEntries, List.mem_cons, List.not_mem_nil, or_false] at he
    rcases he with rfl | rfl | rfl | rfl
    · cases hx
    · cases hx
    · cases hx
    · injection hx with h1 h2
      subst h1 h2
      exact ⟨rfl, by decide⟩)

-- so do a P2PKH output and a script for two signatures by three keys without it
example : insertSignatures toyHashes (Hex.encode (demoTxN 2).ser)
    ([keyHashEntry [], scriptEntry [] 2 [key0, key1, key2] [some sig11, none, some sig11]].map Entry.hash)
    ([keyHashEntry [], scriptEntry [] 2 [key0, key1, key2] [some sig11, none, some sig11]].map Entry.unlock) false =
    .ok (Hex.encode ((demoTxN 2).unlocked (toyHashes.hash .sha256)
      ([keyHashEntry [], scriptEntry [] 2 [key0, key1, key2] [some sig11, none, some sig11]].map Entry.expect))) :=
  C123_insert_partial _ _ (demoTxN_unsigned 2 (by decide) (by decide)) _ rfl false (by
    intro e he
    simp only [List.mem_cons, List.not_mem_nil, or_false] at he
    rcases he with rfl | rfl
    · exact one_fills false []
    · exact Fills.multi (multi_signed der11_is [] 2 _ _ (by decide) (by decide) (by decide) demo_keys rfl (by decide) demo_sigs) rfl) (by
    intro e he ders r hx
    simp only [List.mem_cons, List.not_mem_nil, or_false] at he
    rcases he with rfl | rfl <;> cases hx)

-- one signature for three keys in a witness meets the hypotheses of `C123_witness_multisig_violated`
example : ∃ text, insertSignatures toyHashes (Hex.encode (demoTxN 1).ser)
      ([witnessEntry [] 1 [key0, key1, key2] [some sig11, none, some sig11]].map Entry.hash)
      ([witnessEntry [] 1 [key0, key1, key2] [some sig11, none, some sig11]].map Entry.unlock) true = .ok text ∧
    text ≠ Hex.encode ((demoTxN 1).unlocked (toyHashes.hash .sha256)
      ([witnessEntry [] 1 [key0, key1, key2] [some sig11, none, some sig11]].map Entry.expect)) :=
  C123_witness_multisig_violated _ _ (demoTxN_unsigned 1 (by decide) (by decide)) _ rfl true (by
    intro e he
    simp only [List.mem_cons, List.not_mem_nil, or_false] at he
    subst he
    exact Fills.witnessMulti (multi_signed der11_is [] 1 _ _ (by decide) (by decide) (by decide) demo_keys rfl (by decide) demo_sigs) rfl)
    (witnessEntry [] 1 [key0, key1, key2] [some sig11, none, some sig11]) (by simp) [der11] _ rfl (Or.inl (by decide))

end Verif
