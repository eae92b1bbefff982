import Verif.Lemmas.BtcLikeSign
import Verif.Props.BtcHash

/-! Lemmas about `btcLikeTxDriver`: hashes, inserting signatures, verifying. -/

namespace Verif.BtcLike
open Verif Verif.Spec
open _root_.Verif.Btc (Vin Vout TxOut Curve takeN take1 concatAll takeN_append concatAll_ok compactSize_small)

/-- The unlock data describe the output: locking script, value, and for a nested output the witness program. -/
structure Describes (u : TxUnlock) (o : KeyOutput) (value : Nat) : Prop where
  ok : o.Ok
  lock : Hex.decode u.lockScript = .ok o.lock
  nested : ∀ h k, o = .nested h k → Hex.decode u.redeemScript = .ok (witnessV0Script k)
  value : u.amount.toNat = value

/-! ### Hashes -/

theorem check_keyHash {h : Bytes} (hl : h.length = 20) : checkScriptType (p2pkhScript h) = .ok .p2pkh := by
  have e : p2pkhScript h = 0x76 :: 0xa9 :: 0x14 :: (h ++ [0x88, 0xac]) := by simp [p2pkhScript]
  have e3 : index (p2pkhScript h) 23 = .ok 0x88 := by
    rw [show p2pkhScript h = ([0x76, 0xa9, 0x14] ++ h) ++ 0x88 :: [0xac] by simp [p2pkhScript]]
    exact Btc.index_at _ _ _ (by simp [hl])
  have e4 : index (p2pkhScript h) 24 = .ok 0xac := by
    rw [show p2pkhScript h = ([0x76, 0xa9, 0x14] ++ h ++ [0x88]) ++ 0xac :: [] by simp [p2pkhScript]]
    exact Btc.index_at _ _ _ (by simp [hl])
  have e0 : index (p2pkhScript h) 0 = .ok 0x76 := by rw [e]; rfl
  have e1 : index (p2pkhScript h) 1 = .ok 0xa9 := by rw [e]; rfl
  have e2 : index (p2pkhScript h) 2 = .ok 0x14 := by rw [e]; rfl
  unfold checkScriptType
  simp only [allAt, e0, e1, e2, e3, e4, Res.bind_ok, if_true]

theorem check_nested {h : Bytes} (hl : h.length = 20) : checkScriptType (p2shScript h) = .ok .p2sh := by
  have e : p2shScript h = 0xa9 :: 0x14 :: (h ++ [0x87]) := by simp [p2shScript]
  have e3 : index (p2shScript h) 22 = .ok 0x87 := by
    rw [show p2shScript h = ([0xa9, 0x14] ++ h) ++ 0x87 :: [] by simp [p2shScript]]
    exact Btc.index_at _ _ _ (by simp [hl])
  have e0 : index (p2shScript h) 0 = .ok 0xa9 := by rw [e]; rfl
  have e1 : index (p2shScript h) 1 = .ok 0x14 := by rw [e]; rfl
  unfold checkScriptType
  simp only [allAt, e0, e1, e3, Res.bind_ok, if_true]
  simp

theorem check_native {k : Bytes} (hl : k.length = 20) : checkScriptType (witnessV0Script k) = .ok .bech32 := by
  have e : witnessV0Script k = 0x00 :: 0x14 :: k := by simp [witnessV0Script, push, hl]
  unfold checkScriptType
  rw [e]
  simp [allAt, index]

theorem scriptCode_witness {t k : Bytes} (hd : Hex.decode t = .ok (witnessV0Script k)) (hl : k.length = 20) : scriptCode t = .ok (p2pkhScript k) := by
  have e : witnessV0Script k = 0x00 :: 0x14 :: k := by simp [witnessV0Script, push, hl]
  unfold scriptCode
  rw [hd, e, Res.bind_ok]
  simp [allAt, index, hl, p2pkhScript]

theorem ins_out (l : List RawIn) : ((l.map ofIn).map fun i => i.txid ++ i.vout).flatten = (l.map RawIn.outpoint).flatten := by
  rw [List.map_map]
  rfl

theorem ins_seq (l : List RawIn) : ((l.map ofIn).map TxIn.sequence).flatten = (l.map fun i => leBytes 4 i.sequence).flatten := by
  simp [ofIn, Function.comp_def]

theorem outs_ser {l : List RawOut} (h : ∀ o ∈ l, o.script.length < 253) :
    ((l.map ofOut).map fun o => o.amount ++ UInt8.ofNat o.lockScript.length :: o.lockScript).flatten = (l.map RawOut.ser).flatten := by
  rw [List.map_map]
  refine congrArg _ (List.map_congr_left fun o ho => ?_)
  simp [ofOut, RawOut.ser, varBytes, compactSize_small (h o ho)]

theorem segwitBytes_eq {H : Hashes} {t : RawTx} (s : Small t) {ws : List SigPub} {redeem code : Bytes} (hc : scriptCode redeem = .ok code)
    (hl : code.length < 253) (amount : UInt64) (i : RawIn) :
    segwitBytes H (ofRaw t ws) redeem amount (ofIn i) = .ok (leBytes 4 t.version ++ H.hash .doubleSha256 (t.ins.map RawIn.outpoint).flatten ++
      H.hash .doubleSha256 (t.ins.map fun i => leBytes 4 i.sequence).flatten ++ i.outpoint ++ varBytes code ++ leBytes 8 amount.toNat ++
      leBytes 4 i.sequence ++ H.hash .doubleSha256 (t.outs.map RawOut.ser).flatten ++ leBytes 4 t.lockTime) := by
  unfold segwitBytes
  rw [hc, Res.bind_ok]
  simp only [ofRaw, ins_out, ins_seq, outs_ser s.outs]
  simp [ofIn, RawIn.outpoint, varBytes, compactSize_small hl]

theorem withScript_ofRaw (t : RawTx) (ws : List SigPub) (k : Nat) (code : Bytes) :
    withScript (ofRaw t ws) k code = ofRaw { t with ins := t.ins.mapIdx (fun j i => { i with script := if j = k then code else [] }) } ws := by
  unfold withScript ofRaw
  simp only
  congr 1
  apply List.ext_getElem?
  intro j
  simp only [List.getElem?_mapIdx, List.getElem?_map]
  cases t.ins[j]? <;> simp [ofIn]

theorem small_mapIdx {t : RawTx} (s : Small t) (f : Nat → RawIn → Bytes) (hf : ∀ k i, (f k i).length < 253) :
    Small { t with ins := t.ins.mapIdx (fun j i => { i with script := f j i }) } := by
  refine ⟨by simpa using s.insPos, by simpa using s.insLt, s.outsPos, s.outsLt, ?_, s.outs⟩
  intro i hi
  obtain ⟨j, hj, rfl⟩ := List.mem_mapIdx.mp hi
  exact ⟨(s.ins _ (List.getElem_mem hj)).1, hf _ _⟩

/-- The unlock data after hashing. -/
def afterHash (o : KeyOutput) (u : TxUnlock) : TxUnlock :=
  match o with
  | .native _ => { u with redeemScript := u.lockScript }
  | _ => u

theorem hashOne_eq {H : Hashes} {t : RawTx} (s : Small t) {k : Nat} {i : RawIn} (hi : t.ins[k]? = some i) {u : TxUnlock} {o : KeyOutput} {v : Nat}
    (d : Describes u o v) : hashOne H (ofRaw t []) k u = .ok (H.hash .doubleSha256 (o.preimage (H.hash .doubleSha256) t k i v), afterHash o u) := by
  have hidx : index (ofRaw t []).vins k = .ok (ofIn i) := by simp [index, ofRaw, hi]
  obtain ⟨ok, hlock, hn, rfl⟩ := d
  unfold hashOne
  rw [hlock, Res.bind_ok]
  cases o with
  | keyHash h =>
    simp only [KeyOutput.Ok] at ok
    rw [if_neg (by simp [KeyOutput.lock, p2pkhScript, ok]), hidx, Res.bind_ok]
    simp only [KeyOutput.lock, check_keyHash ok, Res.bind_ok]
    have hlen : (p2pkhScript h).length = 25 := by simp [p2pkhScript, ok]
    rw [withScript_ofRaw, encodeTx_ser (small_mapIdx s _ (by intro j _; split <;> simp [hlen]))]
    · simp [afterHash, KeyOutput.preimage, legacyPreimage]
    · intro x hx
      have hm : x ∈ t.ins.mapIdx (fun j i => { i with script := if j = k then p2pkhScript h else [] }) := by
        simp only at hx; rw [hx]; simp
      obtain ⟨j, hj, rfl⟩ := List.mem_mapIdx.mp hm
      simp only
      split
      · rw [show p2pkhScript h = ([0x76, 0xa9, 0x14] ++ h ++ [0x88]) ++ [0xac] by simp [p2pkhScript], List.getLast?_concat]
        decide
      · simp
  | nested h k' =>
    simp only [KeyOutput.Ok] at ok
    rw [if_neg (by simp [KeyOutput.lock, p2shScript, ok]), hidx, Res.bind_ok]
    simp only [KeyOutput.lock, check_nested ok.1, Res.bind_ok]
    rw [segwitBytes_eq s (scriptCode_witness (hn h k' rfl) ok.2) (by simp [p2pkhScript, ok])]
    simp [afterHash, KeyOutput.preimage, bip143Preimage]
  | native k' =>
    simp only [KeyOutput.Ok] at ok
    rw [if_neg (by simp [KeyOutput.lock, witnessV0Script, push, ok]), hidx, Res.bind_ok]
    simp only [KeyOutput.lock, check_native ok, Res.bind_ok]
    rw [segwitBytes_eq s (scriptCode_witness hlock ok) (by simp [p2pkhScript, ok])]
    simp [afterHash, KeyOutput.preimage, bip143Preimage]

/-- The hash each input is signed with, from input `k` on. -/
def hashesFrom (H : Hashes) (t : RawTx) : Nat → List RawIn → List Spend → List Bytes
  | k, i :: is, s :: ss => H.hash .doubleSha256 (s.out.preimage (H.hash .doubleSha256) t k i s.value) :: hashesFrom H t (k + 1) is ss
  | _, _, _ => []

theorem hashesFrom_get {H : Hashes} {t : RawTx} : ∀ {k : Nat} {is : List RawIn} {ss : List Spend} {j : Nat} {i : RawIn} {s : Spend},
    is[j]? = some i → ss[j]? = some s →
    (hashesFrom H t k is ss)[j]? = some (H.hash .doubleSha256 (s.out.preimage (H.hash .doubleSha256) t (k + j) i s.value))
  | k, i' :: is, s' :: ss, 0, i, s, h1, h2 => by
    simp only [List.getElem?_cons_zero, Option.some.injEq] at h1 h2
    subst h1; subst h2
    simp [hashesFrom]
  | k, i' :: is, s' :: ss, j + 1, i, s, h1, h2 => by
    simp only [List.getElem?_cons_succ] at h1 h2
    simp only [hashesFrom, List.getElem?_cons_succ]
    rw [hashesFrom_get h1 h2, show k + 1 + j = k + (j + 1) by omega]
  | _, [], _, _, _, _, h1, _ => by simp at h1
  | _, _ :: _, [], _, _, _, _, h2 => by simp at h2

theorem hashesFrom_length {H : Hashes} {t : RawTx} : ∀ {k : Nat} {is : List RawIn} {ss : List Spend}, is.length = ss.length →
    (hashesFrom H t k is ss).length = ss.length
  | _, [], [], _ => rfl
  | _, _ :: _, _ :: _, h => by simp [hashesFrom, hashesFrom_length (by simpa using h)]
  | _, [], _ :: _, h => by simp at h
  | _, _ :: _, [], h => by simp at h

theorem hashLoop_eq {H : Hashes} {t : RawTx} (s : Small t) : ∀ {k : Nat} {us : List TxUnlock} {ss : List Spend} {is : List RawIn},
    List.Forall₂ (fun u s => Describes u s.out s.value) us ss → t.ins.drop k = is → is.length = ss.length →
    hashLoop H (ofRaw t []) k us = .ok (List.zip (hashesFrom H t k is ss) (List.zipWith (fun s u => afterHash s.out u) ss us))
  | k, [], [], is, .nil, _, _ => by simp [hashLoop]
  | k, u :: us, x :: ss, [], .cons _ _, _, hl => by simp at hl
  | k, u :: us, x :: ss, i :: is, .cons h hs, hd, hl => by
    have h0 : t.ins[k]? = some i := by
      have := congrArg List.head? hd
      simpa using this
    have h1 : t.ins.drop (k + 1) = is := by
      rw [show k + 1 = 1 + k by omega, ← List.drop_drop] at *
      have := congrArg (List.drop 1) hd
      simpa [List.drop_drop, Nat.add_comm] using this
    rw [hashLoop, hashOne_eq s h0 h, Res.bind_ok, hashLoop_eq s hs h1 (by simpa using hl), Res.bind_ok]
    rfl

theorem getHashes_eq {H : Hashes} {t : RawTx} (s : Small t) {us : List TxUnlock} {ss : List Spend}
    (h : List.Forall₂ (fun u s => Describes u s.out s.value) us ss) (hl : t.ins.length = ss.length) :
    getHashes H (ofRaw t []) us = .ok (List.zip (hashesFrom H t 0 t.ins ss) (List.zipWith (fun s u => afterHash s.out u) ss us)) := by
  unfold getHashes
  rw [if_neg, hashLoop_eq s h (by simp) hl]
  rintro (h' | h')
  · exact s.ins_ne h'
  · exact h' (by simp [ofRaw, hl, h.length_eq])

/-! ### Inserting signatures -/

theorem hex_cons {t r : Bytes} {x : UInt8} (h : Hex.decode t = .ok (x :: r)) :
    ∃ a b t' u v, t = a :: b :: t' ∧ Hex.decode t' = .ok r ∧ Hex.value a = some u ∧ Hex.value b = some v ∧ x = u * 16 + v := by
  match t, h with
  | [], h => simp [Hex.decode] at h
  | [_], h => simp [Hex.decode] at h
  | a :: b :: t', h =>
    rw [Hex.decode] at h
    cases ha : Hex.value a <;> cases hb : Hex.value b <;> simp [ha, hb] at h
    rename_i u v
    cases hd : Hex.decode t' <;> simp [hd] at h
    exact ⟨a, b, t', u, v, rfl, by rw [hd, h.2], ha, hb, h.1.symm⟩

theorem hex_digit_table (c : UInt8) : ∀ v ∈ Hex.value c, v.toNat < 16 ∧ (v = 0 → c = 0x30) ∧ (v = 1 → c = 0x31) ∧ (v = 4 → c = 0x34) ∧
    (c = 0x30 → v = 0) ∧ (c = 0x31 → v = 1) ∧ (c = 0x34 → v = 4) := by
  revert c; apply Hex.u8_forall; decide +kernel

theorem byte_digits {u v : UInt8} (hu : u.toNat < 16) (hv : v.toNat < 16) : (u * 16 + v).toNat = u.toNat * 16 + v.toNat := by
  rw [UInt8.toNat_add, UInt8.toNat_mul]
  simp
  omega

theorem isWitnessLock_iff {t r : Bytes} {x y : UInt8} (h : Hex.decode t = .ok (x :: y :: r)) : isWitnessLock t = true ↔ x = 0x00 ∧ y = 0x14 := by
  obtain ⟨a, b, t', u, v, rfl, h', ha, hb, rfl⟩ := hex_cons h
  obtain ⟨c, d, t', w, z, rfl, -, hc, hd, rfl⟩ := hex_cons h'
  have da := hex_digit_table a _ ha
  have db := hex_digit_table b _ hb
  have dc := hex_digit_table c _ hc
  have dd := hex_digit_table d _ hd
  have e1 := byte_digits da.1 db.1
  have e2 := byte_digits dc.1 dd.1
  have hp : isWitnessLock (a :: b :: c :: d :: t') = true ↔ a = 0x30 ∧ b = 0x30 ∧ c = 0x31 ∧ d = 0x34 := by
    unfold isWitnessLock
    rw [show asc "0014" = [0x30, 0x30, 0x31, 0x34] by decide]
    simp only [List.isPrefixOf, Bool.and_true, Bool.and_eq_true, beq_iff_eq]
    exact ⟨fun ⟨h1, h2, h3, h4⟩ => ⟨h1.symm, h2.symm, h3.symm, h4.symm⟩, fun ⟨h1, h2, h3, h4⟩ => ⟨h1.symm, h2.symm, h3.symm, h4.symm⟩⟩
  rw [hp]
  constructor
  · rintro ⟨rfl, rfl, rfl, rfl⟩
    rw [da.2.2.2.2.1 rfl, db.2.2.2.2.1 rfl, dc.2.2.2.2.2.1 rfl, dd.2.2.2.2.2.2 rfl]
    decide
  · rintro ⟨h1, h2⟩
    rw [h1] at e1
    rw [h2] at e2
    have u0 : u = 0 := UInt8.toNat_inj.mp (by simp at e1 ⊢; omega)
    have v0 : v = 0 := UInt8.toNat_inj.mp (by simp at e1 ⊢; omega)
    have w1 : w = 1 := UInt8.toNat_inj.mp (by simp at e2 ⊢; omega)
    have z4 : z = 4 := UInt8.toNat_inj.mp (by simp at e2 ⊢; omega)
    exact ⟨da.2.1 u0, db.2.1 v0, dc.2.2.1 w1, dd.2.2.2.1 z4⟩

theorem Describes.witness_iff {u : TxUnlock} {o : KeyOutput} {v : Nat} (d : Describes u o v) : isWitnessLock u.lockScript = true ↔ ∃ k, o = .native k := by
  have hl := d.lock
  have ok := d.ok
  cases o with
  | keyHash h =>
    rw [isWitnessLock_iff (x := 0x76) (y := 0xa9) (r := 0x14 :: (h ++ [0x88, 0xac])) (by rw [hl]; simp [KeyOutput.lock, p2pkhScript])]
    simp
  | nested h k =>
    rw [isWitnessLock_iff (x := 0xa9) (y := 0x14) (r := h ++ [0x87]) (by rw [hl]; simp [KeyOutput.lock, p2shScript])]
    simp
  | native k =>
    simp only [KeyOutput.Ok] at ok
    rw [isWitnessLock_iff (x := 0x00) (y := 0x14) (r := k) (by rw [hl]; simp [KeyOutput.lock, witnessV0Script, push, ok])]
    simp

/-- Unlock data as the caller makes them: only a nested output has a redeem script. -/
structure Fresh (u : TxUnlock) (s : Spend) : Prop where
  desc : Describes u s.out s.value
  redeem : (∀ h k, s.out ≠ .nested h k) → u.redeemScript = []

/-- What the package holds for the witness of an input. -/
def witOf (s : Spend) : SigPub := if s.out.isWitness then ⟨some s.sig, s.pub⟩ else ⟨none, []⟩

/-- The unlock data after inserting. -/
def afterInsert (s : Spend) (u : TxUnlock) : TxUnlock :=
  match s.out with
  | .native _ => { u with redeemScript := u.lockScript, lockScript := asc "00" }
  | _ => u

theorem _root_.Verif.Spec.Spend.Good.scriptSig_eq {s : Spend} (g : s.Good) : scriptSig ⟨some s.sig, s.pub⟩ = .ok (push s.der ++ push s.pub) := by
  obtain ⟨R, S, hR, hS, _, _, he⟩ := C24_encode_canonical s.sig 1 g.sig g.rPos g.sPos
  obtain ⟨R', S', hR', hS', hd⟩ := g.der
  simp only [scriptSig, Btc.encodeSigPub]
  rw [he, Res.bind_ok, hd, Btc.IsDerInt.unique hR' hR, Btc.IsDerInt.unique hS' hS]
  simp [push]

theorem _root_.Verif.Spec.Spend.Good.witness_der {s : Spend} (g : s.Good) (hw : s.out.isWitness = true) :
    s.der = derSig (widen (s.sig.take 32)) (widen (s.sig.drop 32)) ++ [1] := by
  obtain ⟨R', S', hR', hS', hd⟩ := g.der
  have h1 : (s.sig.take 32).length = 32 := by rw [List.length_take, g.sig]; rfl
  have h2 : (s.sig.drop 32).length = 32 := by rw [List.length_drop, g.sig]
  rw [hd, Btc.IsDerInt.unique hR' (widen_der h1 (g.wide hw).1), Btc.IsDerInt.unique hS' (widen_der h2 (g.wide hw).2)]

/-- `der` is what the package writes for the signature. -/
structure Written (s : Spend) : Prop where
  sig : s.sig.length = 64
  pub : s.pub.length = 33
  key : s.out.isWitness = false → scriptSig ⟨some s.sig, s.pub⟩ = .ok (push s.der ++ push s.pub)
  wit : s.out.isWitness = true → s.der = derSig (widen (s.sig.take 32)) (widen (s.sig.drop 32)) ++ [1]
  len : s.der.length ≤ 73

theorem _root_.Verif.Spec.Spend.Good.written {s : Spend} (g : s.Good) : Written s := by
  refine ⟨g.sig, g.pub, fun _ => g.scriptSig_eq, fun h => g.witness_der h, ?_⟩
  obtain ⟨R, S, hR, hS, lR, lS, _⟩ := C24_encode_canonical s.sig 1 g.sig g.rPos g.sPos
  obtain ⟨R', S', hR', hS', hd⟩ := g.der
  rw [hd, Btc.IsDerInt.unique hR' hR, Btc.IsDerInt.unique hS' hS]
  simp [derSig]
  omega

theorem encodeWitness_witOf {s : Spend} (g : Written s) : encodeWitness (witOf s) = .ok (stackBytes (s.out.stack s.der s.pub)) := by
  unfold witOf
  cases ho : s.out with
  | keyHash h => simp only [KeyOutput.isWitness, KeyOutput.stack]; exact encodeWitness_none _
  | nested h k =>
    have hw : s.out.isWitness = true := by rw [ho]; rfl
    simp only [KeyOutput.isWitness, KeyOutput.stack, if_true]
    rw [g.wit hw]
    exact encodeWitness_some g.sig g.pub
  | native k =>
    have hw : s.out.isWitness = true := by rw [ho]; rfl
    simp only [KeyOutput.isWitness, KeyOutput.stack, if_true]
    rw [g.wit hw]
    exact encodeWitness_some g.sig g.pub

theorem decodeWitness_witOf {s : Spend} (g : Written s) (r : Bytes) : decodeWitness (stackBytes (s.out.stack s.der s.pub) ++ r) = .ok ([witOf s], r) := by
  unfold witOf
  cases ho : s.out with
  | keyHash h => simp only [KeyOutput.isWitness, KeyOutput.stack]; exact decodeWitness_none _
  | nested h k =>
    have hw : s.out.isWitness = true := by rw [ho]; rfl
    simp only [KeyOutput.isWitness, KeyOutput.stack, if_true]
    rw [g.wit hw]
    exact decodeWitness_some g.sig g.pub r
  | native k =>
    have hw : s.out.isWitness = true := by rw [ho]; rfl
    simp only [KeyOutput.isWitness, KeyOutput.stack, if_true]
    rw [g.wit hw]
    exact decodeWitness_some g.sig g.pub r

/-- The witness list after inserting from input `k` on. -/
def witsFrom (k : Nat) (ws : List SigPub) (ss : List Spend) : List SigPub :=
  if ws = [] ∧ ss.any (fun s => s.out.isWitness) = false then [] else padWitness k ws ++ ss.map witOf

theorem witsFrom_cons_key {k : Nat} {ws : List SigPub} {s : Spend} {ss : List Spend} (h : s.out.isWitness = false) :
    witsFrom (k + 1) (if ws = [] then [] else ws ++ [⟨none, []⟩]) ss = witsFrom k ws (s :: ss) := by
  have hw : witOf s = ⟨none, []⟩ := by simp [witOf, h]
  unfold witsFrom
  by_cases hws : ws = []
  · subst hws
    simp only [if_true, true_and, List.any_cons, h, Bool.false_or]
    split
    · rfl
    · simp [padWitness, hw, List.replicate_succ']
  · rw [if_neg hws]
    simp [hws, padWitness, hw]

theorem witsFrom_cons_wit {k : Nat} {ws : List SigPub} {s : Spend} {ss : List Spend} (h : s.out.isWitness = true) :
    witsFrom (k + 1) (padWitness k ws ++ [⟨some s.sig, s.pub⟩]) ss = witsFrom k ws (s :: ss) := by
  have hw : witOf s = ⟨some s.sig, s.pub⟩ := by simp [witOf, h]
  unfold witsFrom
  rw [if_neg (by simp), if_neg (by simp [h])]
  conv_lhs => unfold padWitness
  simp only [List.append_eq_nil_iff, List.cons_ne_nil, and_false, if_false, List.map_cons, hw, List.append_assoc, List.cons_append, List.nil_append]
  rfl

theorem insertLoop_eq : ∀ {k : Nat} {us : List TxUnlock} {ss : List Spend} {ws : List SigPub}, List.Forall₂ Fresh us ss → (∀ s ∈ ss, Written s) →
    insertLoop ss.length k (ss.map fun s => ⟨some s.sig, s.pub⟩) us ws =
      .ok (ss.map (fun s => s.out.script s.der s.pub), witsFrom k ws ss, List.zipWith afterInsert ss us)
  | k, [], [], ws, .nil, _ => by
    simp only [List.length_nil, List.map_nil, List.zipWith_nil_left, insertLoop, witsFrom, padWitness, List.any_nil, and_true, List.append_nil]
    by_cases h : ws = [] <;> simp [h]
  | k, u :: us, s :: ss, ws, .cons f fs, g => by
    have gs := g s (by simp)
    have hrest := fun ws' => insertLoop_eq (k := k + 1) (ws := ws') fs (fun x hx => g x (by simp [hx]))
    have hwit := f.desc.witness_iff
    simp only [List.map_cons, List.length_cons, insertLoop]
    rw [if_neg (by simp [gs.sig]), if_neg (by simp [gs.pub])]
    cases ho : s.out with
    | keyHash h =>
      have hr : u.redeemScript = [] := f.redeem (by simp [ho])
      have hw : isWitnessLock u.lockScript = false := by
        rw [Bool.eq_false_iff]; intro hc; obtain ⟨k', hk⟩ := hwit.mp hc; rw [ho] at hk; cases hk
      have hiw : s.out.isWitness = false := by rw [ho]; rfl
      simp only [hw, Bool.false_eq_true, and_false, if_false, hr, if_true]
      rw [gs.key hiw, Res.bind_ok, Res.bind_ok]
      simp only
      rw [hrest, Res.bind_ok]
      simp only [witsFrom_cons_key hiw]
      simp [afterInsert, ho, KeyOutput.script]
    | nested h k' =>
      have hd := f.desc.nested h k' ho
      have hr : u.redeemScript ≠ [] := by
        intro e; rw [e] at hd; simp [Hex.decode, witnessV0Script] at hd
      have hl : u.lockScript ≠ asc "00" := by
        intro e
        have := f.desc.lock
        have ok := f.desc.ok
        rw [e, ho] at this
        rw [ho] at ok
        have h0 : Hex.decode (asc "00") = .ok [0] := by decide
        rw [h0] at this
        simp [KeyOutput.lock, p2shScript] at this
      have hiw : s.out.isWitness = true := by rw [ho]; rfl
      simp only [hr, false_and, if_false, hl]
      unfold redeemPush
      rw [hd]
      simp only [Res.bind_ok]
      rw [hrest, Res.bind_ok]
      simp only [witsFrom_cons_wit hiw]
      simp [afterInsert, ho, KeyOutput.script, push]
    | native k' =>
      have hr : u.redeemScript = [] := f.redeem (by simp [ho])
      have hw : isWitnessLock u.lockScript = true := hwit.mpr ⟨k', ho⟩
      have hiw : s.out.isWitness = true := by rw [ho]; rfl
      have hl : u.lockScript ≠ [] := by
        intro e
        have := f.desc.lock
        rw [e, ho] at this
        simp [Hex.decode, KeyOutput.lock, witnessV0Script] at this
      simp only [hr, hw, and_self, if_true, hl, if_false, Res.bind_ok]
      rw [hrest, Res.bind_ok]
      simp only [witsFrom_cons_wit hiw]
      simp [afterInsert, ho, KeyOutput.script]

theorem setScripts_ofRaw (t : RawTx) (ws : List SigPub) (scripts : List Bytes) :
    setScripts (ofRaw t ws) scripts = ofRaw (t.withScripts scripts) ws := by
  unfold setScripts ofRaw RawTx.withScripts
  simp only
  congr 1
  rw [List.zipWith_map_left, List.map_zipWith]
  rfl

end Verif.BtcLike
