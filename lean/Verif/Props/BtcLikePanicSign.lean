import Verif.Props.BtcLikePanic
import Verif.Props.SignPanicVerify

/-! C144: exactly when inserting signatures and verifying crash in the older Bitcoin driver. -/

namespace Verif
open Spec Spec.Crash Spec.Eip55 Spec.BtcLikeWire

namespace BtcLike
open _root_.Verif.Btc (Vin Vout TxOut Curve takeN take1 concatAll)

/-! ### Inserting -/

/-- A witness that is written down. -/
def Fine (w : SigPub) : Prop := w.signature = none ∨ ∃ sig, w.signature = some sig ∧ 33 ≤ sig.length

theorem encode_safe (H : Hashes) (t : Tx) (hw : ∀ w ∈ t.witness, Fine w) : encodeTx H t ≠ .panic := by
  unfold encodeTx
  split
  · simp
  rename_i hv
  split
  · simp
  split
  · split
    · simp
    refine Btc.bind_ne_panic (CreatePanic.concat_ne_panic _ (encodeIn_ne_panic _) _) fun a _ => ?_
    refine Btc.bind_ne_panic (CreatePanic.concat_ne_panic _ encodeOut_ne_panic _) fun b _ => ?_
    refine Btc.bind_ne_panic ?_ fun c _ => Btc.bind_ne_panic (SignPanic.index_ne_panic (by cases hh : t.vins <;> simp_all)) (by simp)
    intro h
    obtain ⟨bf, w, af, e, _, hp⟩ := (CreatePanic.loop_panic (L := concatAll encodeMultiWitness) (f := encodeMultiWitness) rfl (fun _ _ => rfl) _).mp h
    obtain ⟨sig, h1, h2⟩ := (encodeMulti_panic w).1.mp hp
    rcases hw w (by rw [e]; simp) with h3 | ⟨sig', h3, h4⟩
    · rw [h1] at h3; cases h3
    · rw [h1] at h3; cases h3; omega
  · refine Btc.bind_ne_panic (CreatePanic.concat_ne_panic _ (encodeIn_ne_panic _) _) fun a _ => ?_
    refine Btc.bind_ne_panic (CreatePanic.concat_ne_panic _ encodeOut_ne_panic _) fun b _ => ?_
    refine Btc.bind_ne_panic ?_ (by simp)
    intro h
    obtain ⟨bf, w, af, e, _, hp⟩ := (CreatePanic.loop_panic (L := concatAll encodeWitness) (f := encodeWitness) rfl (fun _ _ => rfl) _).mp h
    obtain ⟨sig, h1, h2⟩ := (encodeWitness_panic w).1.mp hp
    rcases hw w (by rw [e]; simp) with h3 | ⟨sig', h3, h4⟩
    · rw [h1] at h3; cases h3
    · rw [h1] at h3; cases h3; omega

theorem scriptSig_cases {s : SigPub} {sig : Bytes} (hs : s.signature = some sig) (hl : sig.length = 64) :
    ((beNat (sig.take 32) = 0 ∨ beNat (sig.drop 32) = 0) → scriptSig s = .panic) ∧
    ((beNat (sig.take 32) ≠ 0 ∧ beNat (sig.drop 32) ≠ 0) → ∃ x, scriptSig s = .ok x) := by
  unfold scriptSig Btc.encodeSigPub
  rw [hs]
  simp only
  constructor
  · intro hz
    rw [SignPanic.sig_panic hl (fun h => by have := h hl; tauto)]
    rfl
  · rintro ⟨h1, h2⟩
    obtain ⟨R, hR, _⟩ := Btc.derBody_spec (sig.take 32) (by simp [hl]) h1
    obtain ⟨S, hS, _⟩ := Btc.derBody_spec (sig.drop 32) (by simp [hl]) h2
    unfold Btc.encodeSig slice
    rw [if_pos ⟨by omega, by omega⟩, Res.bind_ok]
    simp only [List.drop_zero]
    rw [hR, Res.bind_ok, hS]
    exact ⟨_, rfl⟩

theorem redeemPush_cases (r : Bytes) : redeemPush r ≠ .panic ∧ ((∃ x, redeemPush r = .ok x) ↔ ∃ x, HexText r x) := by
  unfold redeemPush
  simp only [← Eip.decode_iff]
  cases hd : Hex.decode r with
  | err => simp
  | panic => exact absurd hd (Hex.decode_ne_panic _)
  | ok b => simp

/-- One input. -/
def insertOne (k : Nat) (s : SigPub) (u : TxUnlock) (ws : List SigPub) : Res (Bytes × List SigPub × TxUnlock) :=
  if (s.signature.getD []).length ≠ 64 then .err
  else if s.pubkey.length ≠ 33 then .err
  else do
    let u := if u.redeemScript = [] ∧ isWitnessLock u.lockScript then { u with redeemScript := u.lockScript, lockScript := asc "00" } else u
    let (script, ws) ←
      if u.redeemScript = [] then do
        let r ← scriptSig s
        .ok (r, if ws = [] then [] else ws ++ [⟨none, []⟩])
      else do
        let r ← if u.lockScript = asc "00" then .ok [] else redeemPush u.redeemScript
        .ok (r, padWitness k ws ++ [s])
    .ok (script, ws, u)

theorem insertLoop_step (n k : Nat) (s : SigPub) (ss : List SigPub) (u : TxUnlock) (us : List TxUnlock) (ws : List SigPub) :
    insertLoop (n + 1) k (s :: ss) (u :: us) ws = (do
      let (script, ws, u) ← insertOne k s u ws
      let (scripts, ws, us) ← insertLoop n (k + 1) ss us ws
      .ok (script :: scripts, ws, u :: us)) := by
  rw [insertLoop]
  unfold insertOne
  by_cases h1 : (s.signature.getD []).length ≠ 64
  · rw [if_pos h1, if_pos h1]; rfl
  rw [if_neg h1, if_neg h1]
  by_cases h2 : s.pubkey.length ≠ 33
  · rw [if_pos h2, if_pos h2]; rfl
  rw [if_neg h2, if_neg h2]
  dsimp only
  generalize (if u.redeemScript = [] ∧ isWitnessLock u.lockScript then { u with redeemScript := u.lockScript, lockScript := asc "00" } else u) = v
  by_cases h3 : v.redeemScript = []
  · simp only [h3, if_true]
    cases scriptSig s <;> rfl
  · simp only [h3, if_false]
    by_cases h4 : v.lockScript = asc "00"
    · simp only [h4, if_true]; rfl
    · simp only [h4, if_false]
      cases redeemPush v.redeemScript <;> rfl

theorem padWitness_fine {k : Nat} {ws : List SigPub} (h : ∀ w ∈ ws, Fine w) : ∀ w ∈ padWitness k ws, Fine w := by
  unfold padWitness
  split
  · intro w hw
    exact .inl (by rw [(List.mem_replicate.mp hw).2])
  · exact h

theorem insertOne_cases (k : Nat) (s : SigPub) (u : TxUnlock) (ws : List SigPub) :
    (insertOne k s u ws = .panic ↔ InsertCrash (s, u)) ∧ ((∃ x, insertOne k s u ws = .ok x) ↔ InsertOk (s, u)) ∧
    ((∀ w ∈ ws, Fine w) → ∀ x, insertOne k s u ws = .ok x → ∀ w ∈ x.2.1, Fine w) := by
  unfold insertOne InsertCrash InsertOk
  cases hs : s.signature with
  | none => simp
  | some sig =>
    simp only [Option.getD_some, Option.some.injEq, exists_eq_left']
    by_cases h1 : sig.length = 64
    swap
    · rw [if_pos h1]; simp [h1]
    rw [if_neg (by simpa using h1)]
    by_cases h2 : s.pubkey.length = 33
    swap
    · rw [if_pos h2]; simp [h2]
    rw [if_neg (by simpa using h2)]
    simp only [h1, h2, true_and]
    have hfine : ∀ ws : List SigPub, (∀ w ∈ ws, Fine w) → ∀ w ∈ padWitness k ws ++ [s], Fine w := by
      intro ws h w hw
      rcases List.mem_append.mp hw with hw | hw
      · exact padWitness_fine h w hw
      · rw [List.mem_singleton] at hw
        subst hw
        exact .inr ⟨sig, hs, by omega⟩
    have hiw : isWitnessLock u.lockScript = true ↔ asc "0014" <+: u.lockScript := by
      unfold isWitnessLock; rw [List.isPrefixOf_iff_prefix]
    by_cases h3 : u.redeemScript = []
    · by_cases h4 : asc "0014" <+: u.lockScript
      · have hne : u.lockScript ≠ [] := by
          intro h0; rw [h0] at h4; have := h4.length_le; simp [asc] at this
        have hv : (if u.redeemScript = [] ∧ isWitnessLock u.lockScript = true then { u with redeemScript := u.lockScript, lockScript := asc "00" } else u) =
          { u with redeemScript := u.lockScript, lockScript := asc "00" } := if_pos ⟨h3, hiw.mpr h4⟩
        simp only [hv, hne, if_false, if_true, Res.bind_ok]
        refine ⟨iff_of_false (by simp) (by simp [h4]), iff_of_true ⟨_, rfl⟩ (.inl ⟨h3, .inl h4⟩), ?_⟩
        intro h x hx
        simp only [Res.ok.injEq] at hx
        subst hx
        exact hfine ws h
      · have hv : (if u.redeemScript = [] ∧ isWitnessLock u.lockScript = true then { u with redeemScript := u.lockScript, lockScript := asc "00" } else u) = u :=
          if_neg (fun h => h4 (hiw.mp h.2))
        rw [hv]
        simp only [h3, if_true]
        obtain ⟨c1, c2⟩ := scriptSig_cases hs h1
        by_cases hz : beNat (sig.take 32) = 0 ∨ beNat (sig.drop 32) = 0
        · rw [c1 hz]
          refine ⟨iff_of_true rfl ⟨trivial, h4, hz⟩, iff_of_false (by simp) ?_, by simp⟩
          rintro (⟨_, h | h⟩ | ⟨h, _⟩)
          · exact h4 h
          · tauto
          · exact h rfl
        · obtain ⟨x, hx⟩ := c2 (by tauto)
          rw [hx]
          simp only [Res.bind_ok]
          refine ⟨iff_of_false (by simp) (by tauto), iff_of_true ⟨_, rfl⟩ (.inl ⟨trivial, .inr (by tauto)⟩), ?_⟩
          intro h y hy
          simp only [Res.ok.injEq] at hy
          subst hy
          dsimp only
          split
          · simp
          · intro w hw
            rcases List.mem_append.mp hw with hw | hw
            · exact h w hw
            · rw [List.mem_singleton] at hw
              subst hw
              exact .inl rfl
    · have hv : (if u.redeemScript = [] ∧ isWitnessLock u.lockScript = true then { u with redeemScript := u.lockScript, lockScript := asc "00" } else u) = u :=
        if_neg (fun h => h3 h.1)
      rw [hv]
      simp only [h3, if_false, false_and, false_or, not_false_eq_true, true_and, ne_eq]
      by_cases h5 : u.lockScript = asc "00"
      · simp only [h5, if_true, Res.bind_ok]
        refine ⟨iff_of_false (by simp) (by simp), iff_of_true ⟨_, rfl⟩ (.inl trivial), ?_⟩
        intro h y hy
        simp only [Res.ok.injEq] at hy
        subst hy
        exact hfine ws h
      · simp only [h5, if_false, false_or]
        obtain ⟨r1, r2⟩ := redeemPush_cases u.redeemScript
        rw [← r2]
        cases hr : redeemPush u.redeemScript with
        | panic => exact absurd hr r1
        | err => simp
        | ok x =>
          simp only [Res.bind_ok]
          refine ⟨iff_of_false (by simp) (by simp), iff_of_true ⟨_, rfl⟩ ⟨_, rfl⟩, ?_⟩
          intro h y hy
          simp only [Res.ok.injEq] at hy
          subst hy
          exact hfine ws h

theorem insertLoop_cases : ∀ (us : List TxUnlock) (sps : List SigPub) (k : Nat) (ws : List SigPub),
    (insertLoop us.length k sps us ws = .panic ↔ FirstBad InsertOk InsertCrash (sps.zip us) ∨ (sps.length < us.length ∧ ∀ p ∈ sps.zip us, InsertOk p)) ∧
    ((∀ w ∈ ws, Fine w) → ∀ x, insertLoop us.length k sps us ws = .ok x → ∀ w ∈ x.2.1, Fine w)
  | [], sps, k, ws => by
    rw [List.length_nil, insertLoop, List.zip_nil_right]
    refine ⟨iff_of_false (by simp) ?_, ?_⟩
    · rintro (⟨b, x, a, h, _⟩ | ⟨h, _⟩)
      · simp at h
      · simp at h
    · intro h x hx
      simp only [Res.ok.injEq] at hx
      subst hx
      exact h
  | u :: us, [], k, ws => by
    rw [List.length_cons, insertLoop]
    exact ⟨iff_of_true rfl (.inr (by simp)), by simp⟩
  | u :: us, s :: ss, k, ws => by
    rw [List.length_cons, insertLoop_step, List.zip_cons_cons, CombinePanic.firstBad_cons, List.forall_mem_cons, List.length_cons, Nat.add_lt_add_iff_right]
    obtain ⟨c1, c2, c3⟩ := insertOne_cases k s u ws
    rw [← c1, ← c2]
    cases ho : insertOne k s u ws with
    | panic => simp
    | err => simp
    | ok x =>
      obtain ⟨script, ws', u'⟩ := x
      obtain ⟨i1, i2⟩ := insertLoop_cases us ss (k + 1) ws'
      simp only [Res.bind_ok, reduceCtorEq, false_or, Res.ok.injEq, exists_eq', true_and]
      refine ⟨?_, ?_⟩
      · rw [DecPanic.bind_panic _ _ (by intro a; simp)]
        exact i1
      · intro h x hx
        obtain ⟨y, e1, e2⟩ := Res.bind_eq_ok.mp hx
        simp only [Res.ok.injEq] at e2
        subst e2
        exact i2 (c3 h _ ho) y e1

theorem isMulti_iff (u : TxUnlock) : isMultiSig u.lockScript u.redeemScript = true ↔ MultiUnlock u := by
  unfold isMultiSig MultiUnlock
  simp only [← Eip.decode_iff]
  cases hl : Hex.decode u.lockScript with
  | err => split <;> simp
  | panic => exact absurd hl (Hex.decode_ne_panic _)
  | ok l =>
    have e := Hex.decode_length _ _ hl
    by_cases hlen : u.lockScript.length ≠ 0x17 * 2
    · rw [if_pos hlen]
      refine iff_of_false (by simp) ?_
      rintro ⟨l', r, h1, _, h2, _⟩
      cases h1
      omega
    · rw [if_neg hlen]
      cases hr : Hex.decode u.redeemScript with
      | err => simp
      | panic => exact absurd hr (Hex.decode_ne_panic _)
      | ok r =>
        simp only [Res.ok.injEq, exists_and_left, exists_eq_left', Bool.and_eq_true, Bool.or_eq_true, beq_iff_eq]
        rw [prefix2 (by omega)]
        have : l.length = 23 := by omega
        simp [this]

/-- Writing down a transaction whose inputs and outputs are in order. -/
theorem encode_panic (H : Hashes) {t : Tx} (hv : t.vins ≠ []) (ho : t.vouts ≠ []) (hw : t.witness ≠ [])
    (hi : ∀ i ∈ t.vins, i.txid.length = 32 ∧ i.vout.length = 4) (hq : ∀ o ∈ t.vouts, o.amount.length = 8) :
    encodeTx H t = .panic ↔ FirstBad (fun w => (w.signature = none ∧ t.isMultiSig = false) ∨ ∃ sig, w.signature = some sig ∧ 33 ≤ sig.length)
      (fun w => ∃ sig, w.signature = some sig ∧ sig.length < 33) t.witness := by
  unfold encodeTx
  rw [if_neg hv, if_neg ho]
  obtain ⟨b, hb⟩ := outs_written hq
  cases hm : t.isMultiSig with
  | true =>
    rw [if_pos rfl, if_neg hw]
    obtain ⟨a, ha⟩ := ins_written hi (fun i => calcRedeemHash H i.script)
    rw [ha, Res.bind_ok, hb, Res.bind_ok, DecPanic.bind_panic]
    · rw [CreatePanic.loop_panic (L := concatAll encodeMultiWitness) (f := encodeMultiWitness) rfl (fun _ _ => rfl)]
      simp only [(encodeMulti_panic _).1, (encodeMulti_panic _).2, reduceCtorEq, and_false, false_or]
    · intro c
      exact Btc.bind_ne_panic (SignPanic.index_ne_panic (List.length_pos_iff.mpr hv)) (by simp)
  | false =>
    rw [if_neg (by simp)]
    obtain ⟨a, ha⟩ := ins_written hi TxIn.script
    rw [ha, Res.bind_ok, hb, Res.bind_ok, DecPanic.bind_panic]
    · rw [CreatePanic.loop_panic (L := concatAll encodeWitness) (f := encodeWitness) rfl (fun _ _ => rfl)]
      simp only [(encodeWitness_panic _).1, (encodeWitness_panic _).2, and_true]
    · intro c
      simp

end BtcLike

open BtcLike

/-- C144, inserting: `InsertSignatureIntoEmptyTransaction` crashes exactly on the texts on which reading crashes (C144_read), and on those of transactions with
outputs and as many inputs as unlock data are given, if at least one signature is given and
- the first unlock data are taken for those of a multi-signature output and, in the witnesses of the transaction followed by the signatures, there is one of
  fewer than 33 bytes (behind those that can be written; with one input these must have a signature), or
- they are not and, one input after the other, there is a signature with a half that is zero for an output without witness, or the signatures run out. -/
theorem C144_insert (H : Hashes) (text : Bytes) (sps : List SigPub) (us : List TxUnlock) :
    insertSignatures H text sps us = .panic ↔ ∃ b, HexText text b ∧ (CrashTx b ∨ ∃ x, IsTx b x ∧ x.vouts ≠ [] ∧ sps ≠ [] ∧ x.vins.length = us.length ∧
      ∃ u ∈ us.head?,
        (MultiUnlock u ∧ FirstBad (fun w => (w.signature = none ∧ us.length ≠ 1) ∨ ∃ sig, w.signature = some sig ∧ 33 ≤ sig.length)
          (fun w => ∃ sig, w.signature = some sig ∧ sig.length < 33) (x.witness ++ sps)) ∨
        (¬ MultiUnlock u ∧ (FirstBad InsertOk InsertCrash (sps.zip us) ∨ (sps.length < us.length ∧ ∀ p ∈ sps.zip us, InsertOk p)))) := by
  unfold insertSignatures
  simp only [← Eip.decode_iff text]
  cases hd : Hex.decode text with
  | err => simp
  | panic => exact absurd hd (Hex.decode_ne_panic _)
  | ok b =>
    simp only [Res.bind_ok, Res.ok.injEq, exists_eq_left', ← C144_read, ← C114_language]
    cases ht : BtcLike.decodeTx b with
    | err => simp
    | panic => simp
    | ok x =>
      have hR := isTx_read ((C114_language _ _).mp ht)
      simp only [Res.bind_ok, reduceCtorEq, false_or, Res.ok.injEq, exists_eq_left']
      rcases us with _ | ⟨u, us⟩
      · simp
      rw [if_neg (by simp)]
      by_cases h1 : sps = []
      · rw [if_pos h1]; simp [h1]
      rw [if_neg h1]
      by_cases h2 : x.vins = []
      · rw [if_pos h2]; simp [h2]
      rw [if_neg h2]
      by_cases h3 : x.vouts = []
      · rw [if_pos h3]; simp [h3]
      rw [if_neg h3]
      by_cases h4 : x.vins.length = (u :: us).length
      swap
      · rw [if_pos h4]; simp only [h4, false_and, and_false]; simp
      rw [if_neg (by simpa using h4)]
      have hi : index (u :: us) 0 = .ok u := rfl
      rw [hi, Res.bind_ok]
      simp only [h1, h3, h4, ne_eq, not_false_eq_true, true_and, List.head?_cons, Option.mem_def, Option.some.injEq, exists_eq_left']
      by_cases hm : MultiUnlock u
      · rw [if_pos ((isMulti_iff u).mpr hm)]
        obtain ⟨l, r, k1, k2, k3, k4, k5⟩ := hm
        rw [(Eip.decode_iff _ _).mpr k2, Res.bind_ok, DecPanic.bind_panic _ _ (by intro a; simp)]
        simp only [show MultiUnlock u from ⟨l, r, k1, k2, k3, k4, k5⟩, not_true_eq_false, false_and, or_false, true_and]
        have hv : x.vins.modifyHead (fun i => { i with script := r }) ≠ [] := by
          cases hh : x.vins with
          | nil => exact absurd hh h2
          | cons i is => simp
        rw [encode_panic H (t := { x with vins := x.vins.modifyHead (fun i => { i with script := r }), witness := x.witness ++ sps }) hv h3 (by simp [h1])]
        · have : (Tx.isMultiSig { x with vins := x.vins.modifyHead (fun i => { i with script := r }), witness := x.witness ++ sps } = false) ↔ ¬ (u :: us).length = 1 := by
            rw [← h4]
            unfold Tx.isMultiSig
            match hh : x.vins with
            | [] => exact absurd hh h2
            | [i] => simp [k5]
            | _ :: _ :: _ => simp
          simp only [this]
        · intro i hi
          have : ∃ j ∈ x.vins, i.txid = j.txid ∧ i.vout = j.vout := by
            cases hh : x.vins with
            | nil => exact absurd hh h2
            | cons j is =>
              simp only [hh, List.modifyHead_cons, List.mem_cons] at hi
              rcases hi with rfl | hi
              · exact ⟨j, by simp, rfl, rfl⟩
              · exact ⟨i, by simp [hi], rfl, rfl⟩
          obtain ⟨j, hj, e1, e2⟩ := this
          rw [e1, e2]
          exact ⟨(hR.ins j hj).1, (hR.ins j hj).2.1⟩
        · exact fun o ho => (hR.outs o ho).1
      · rw [if_neg (fun h => hm ((isMulti_iff u).mp h))]
        simp only [hm, false_and, false_or, not_false_eq_true, true_and]
        obtain ⟨c1, c2⟩ := insertLoop_cases (u :: us) sps 0 x.witness
        rw [← c1]
        cases hl : insertLoop (u :: us).length 0 sps (u :: us) x.witness with
        | err => simp
        | panic => simp
        | ok y =>
          obtain ⟨scripts, ws, us'⟩ := y
          simp only [Res.bind_ok]
          refine iff_of_false ?_ (by simp)
          refine Btc.bind_ne_panic (encode_safe H _ ?_) (by simp)
          refine c2 ?_ _ hl
          intro w hw
          rcases hR.wits w hw with h | ⟨sig, h, h64, _⟩
          · exact .inl h
          · exact .inr ⟨sig, h, by omega⟩

namespace BtcLike
open _root_.Verif.Btc (Vin Vout TxOut Curve takeN take1 concatAll)

/-! ### Verifying -/

theorem decodeSigPub_ne_panic (s : Bytes) : decodeSigPub s ≠ .panic := by
  unfold decodeSigPub
  refine Btc.bind_ne_panic (SignPanic.sigPub_ne_panic s) fun a _ => ?_
  dsimp only
  split <;> simp

/-- One input. -/
def readOne (w : SigPub) (i : TxIn) (u : TxUnlock) : Res ((Bytes × Bytes) × TxUnlock) :=
  match w.signature with
  | none => do
    let sp ← decodeSigPub i.script
    .ok (sp, u)
  | some sig =>
    if isWitnessLock u.lockScript then .ok ((sig, w.pubkey), u)
    else do
      let r ← slice i.script 1 i.script.length
      .ok ((sig, w.pubkey), { u with redeemScript := Hex.encode r })

theorem readOne_cases (w : SigPub) (i : TxIn) (u : TxUnlock) :
    (readOne w i u = .panic ↔ VerifyCrash (w, i, u)) ∧ ((∃ sp, readOne w i u = .ok (sp, found (w, i, u))) ↔ VerifyOk (w, i, u)) ∧
    (∀ x, readOne w i u = .ok x → x.2 = found (w, i, u)) := by
  unfold readOne VerifyCrash VerifyOk found
  cases hs : w.signature with
  | none =>
    simp only [ne_eq, not_true_eq_false, false_and, or_false, true_and, true_or, if_true]
    cases hd : decodeSigPub i.script with
    | panic => exact absurd hd (decodeSigPub_ne_panic _)
    | err => simp
    | ok sp => simp
  | some sig =>
    simp only [reduceCtorEq, ne_eq, not_false_eq_true, true_and, false_and, false_or]
    have hiw : isWitnessLock u.lockScript = (asc "0014").isPrefixOf u.lockScript := rfl
    rw [hiw, ← List.isPrefixOf_iff_prefix]
    cases (asc "0014").isPrefixOf u.lockScript with
    | true => simp
    | false =>
      simp only [Bool.false_eq_true, if_false, not_false_eq_true, true_and, false_or]
      cases hsc : i.script with
      | nil => simp [slice]
      | cons x t => simp [slice]

theorem readSigs_step (nw : Bool) (ws : List SigPub) (k : Nat) (i : TxIn) (is : List TxIn) (u : TxUnlock) (us : List TxUnlock) :
    readSigs nw ws k (i :: is) (u :: us) = ((if nw then (.ok ⟨none, []⟩ : Res SigPub) else index ws k) >>= fun w => readOne w i u >>= fun x =>
      readSigs nw ws (k + 1) is us >>= fun y => .ok (x.1 :: y.1, x.2 :: y.2)) := by
  rw [readSigs]
  have key : ∀ w : SigPub, (match w.signature with
      | none => decodeSigPub i.script >>= fun sp => readSigs nw ws (k + 1) is us >>= fun y => .ok (sp :: y.1, u :: y.2)
      | some sig => if isWitnessLock u.lockScript then readSigs nw ws (k + 1) is us >>= fun y => .ok ((sig, w.pubkey) :: y.1, u :: y.2)
        else slice i.script 1 i.script.length >>= fun r => readSigs nw ws (k + 1) is us >>= fun y =>
          .ok ((sig, w.pubkey) :: y.1, { u with redeemScript := Hex.encode r } :: y.2)) =
      (readOne w i u >>= fun x => readSigs nw ws (k + 1) is us >>= fun y => .ok (x.1 :: y.1, x.2 :: y.2)) := by
    intro w
    unfold readOne
    cases w.signature with
    | none => cases decodeSigPub i.script <;> rfl
    | some sig =>
      simp only
      split
      · rfl
      · cases slice i.script 1 i.script.length <;> rfl
  simp only [← key]
  cases nw <;> rfl

/-- The inputs one after the other; `ws` are the witnesses from here on. -/
theorem readSigs_cases (nw : Bool) (all : List SigPub) : ∀ (is : List TxIn) (us : List TxUnlock) (k : Nat) (ws : List SigPub), is.length = us.length →
    ws.length ≤ is.length → ws = (if nw then is.map (fun _ => ⟨none, []⟩) else all.drop k) →
    (readSigs nw all k is us = .panic ↔ FirstBad VerifyOk VerifyCrash (ws.zip (is.zip us)) ∨ (ws.length < is.length ∧ ∀ p ∈ ws.zip (is.zip us), VerifyOk p)) ∧
    ((∃ sps, readSigs nw all k is us = .ok (sps, (ws.zip (is.zip us)).map found) ∧ sps.length = is.length) ↔ ws.length = is.length ∧ ∀ p ∈ ws.zip (is.zip us), VerifyOk p) ∧
    (∀ x, readSigs nw all k is us = .ok x → x.2 = (ws.zip (is.zip us)).map found ∧ x.1.length = is.length)
  | [], [], k, ws, _, hl, he => by
    have : ws = [] := by simpa using hl
    subst this
    rw [readSigs]
    refine ⟨iff_of_false (by simp) ?_, ?_, ?_⟩
    · rintro (⟨b, x, a, h, _⟩ | ⟨h, _⟩)
      · simp at h
      · simp at h
    · simp
    · rintro x hx
      simp only [Res.ok.injEq] at hx
      subst hx
      simp
  | [], _ :: _, _, _, h, _, _ => by simp at h
  | _ :: _, [], _, _, h, _, _ => by simp at h
  | i :: is, u :: us, k, [], hlen, hl, he => by
    rw [readSigs_step]
    cases nw with
    | true => simp at he
    | false =>
      simp only [Bool.false_eq_true, if_false] at he ⊢
      have : all.length ≤ k := by
        have := congrArg List.length he
        simp at this
        omega
      have hx : index all k = .panic := by unfold index; rw [List.getElem?_eq_none this]
      rw [hx]
      refine ⟨iff_of_true rfl (.inr (by simp)), iff_of_false ?_ (by simp), ?_⟩
      · rintro ⟨sps, h, _⟩; cases h
      · intro x h; cases h
  | i :: is, u :: us, k, w :: ws, hlen, hl, he => by
    rw [readSigs_step]
    have hw : (if nw then (.ok ⟨none, []⟩ : Res SigPub) else index all k) = .ok w ∧ ws = (if nw then is.map (fun _ => ⟨none, []⟩) else all.drop (k + 1)) := by
      cases nw with
      | true =>
        simp only [if_true, List.map_cons, List.cons.injEq] at he ⊢
        exact ⟨by rw [he.1], he.2⟩
      | false =>
        simp only [Bool.false_eq_true, if_false] at he ⊢
        have hk : k < all.length := by
          have := congrArg List.length he
          simp at this
          omega
        rw [List.drop_eq_getElem_cons hk, List.cons.injEq] at he
        refine ⟨?_, he.2⟩
        unfold index
        rw [List.getElem?_eq_getElem hk, he.1]
    rw [hw.1, Res.bind_ok]
    simp only [List.length_cons, Nat.add_right_cancel_iff, Nat.add_le_add_iff_right] at hlen hl
    obtain ⟨i1, i2, i3⟩ := readSigs_cases nw all is us (k + 1) ws hlen hl hw.2
    obtain ⟨c1, c2, c3⟩ := readOne_cases w i u
    rw [List.zip_cons_cons, List.zip_cons_cons, CombinePanic.firstBad_cons, List.forall_mem_cons, List.length_cons, List.length_cons, Nat.add_lt_add_iff_right,
      Nat.add_right_cancel_iff, ← c1, ← c2, List.map_cons]
    cases ho : readOne w i u with
    | panic => simp
    | err => simp
    | ok x =>
      obtain ⟨sp, u'⟩ := x
      have hu : u' = found (w, i, u) := c3 _ ho
      subst hu
      simp only [Res.bind_ok, reduceCtorEq, false_or, Res.ok.injEq, Prod.mk.injEq, and_true, exists_eq', true_and]
      rw [DecPanic.bind_panic _ _ (by intro a; simp)]
      refine ⟨i1, ?_, ?_⟩
      · rw [← i2]
        constructor
        · rintro ⟨sps, h, hl'⟩
          obtain ⟨y, e1, e2⟩ := Res.bind_eq_ok.mp h
          simp only [Res.ok.injEq, Prod.mk.injEq, List.cons.injEq, true_and] at e2
          obtain ⟨k1, k2⟩ := i3 _ e1
          exact ⟨y.1, by rw [e1, ← k1], k2⟩
        · rintro ⟨sps, h, hl'⟩
          rw [h]
          exact ⟨sp :: sps, rfl, by simp [hl']⟩
      · intro x h
        obtain ⟨y, e1, e2⟩ := Res.bind_eq_ok.mp h
        simp only [Res.ok.injEq] at e2
        subst e2
        obtain ⟨k1, k2⟩ := i3 _ e1
        exact ⟨by simp [k1], by simp [k2]⟩

theorem verifyHashes_ne_panic {C : Curve} (hC : ∀ k, C.decompress k ≠ []) : ∀ (hs : List Bytes) (sps : List (Bytes × Bytes)), sps.length ≤ hs.length →
    verifyHashes C hs sps ≠ .panic
  | _, [], _ => by simp [verifyHashes]
  | [], _ :: _, h => by simp at h
  | h :: hs, (sig, pub) :: sps, hl => by
    rw [verifyHashes]
    refine Btc.bind_ne_panic (SignPanic.point_ne_panic hC _) fun p _ => ?_
    split
    · exact verifyHashes_ne_panic hC hs sps (by simpa using hl)
    · simp

theorem hashLoop_length (H : Hashes) (t : Tx) : ∀ (us : List TxUnlock) (k : Nat) (hs : List (Bytes × TxUnlock)), hashLoop H t k us = .ok hs → hs.length = us.length
  | [], k, hs, h => by
    simp only [hashLoop, Res.ok.injEq] at h
    subst h; rfl
  | u :: us, k, hs, h => by
    rw [hashLoop] at h
    obtain ⟨x, _, h⟩ := Res.bind_eq_ok.mp h
    obtain ⟨y, e, h⟩ := Res.bind_eq_ok.mp h
    simp only [Res.ok.injEq] at h
    subst h
    simp [hashLoop_length H t us _ _ e]

end BtcLike

/-- C144, verifying (decompressing a key always returns something): `VerifyRawTransaction` crashes exactly on the texts on which reading crashes (C144_read),
and on those of transactions with as many inputs as unlock data are given where, one input after the other,
- there is a witness with a signature for an input without unlocking script, whose output is not a witness program, or
- the witnesses run out (they can be fewer than the inputs, C114_language), or
- every input gives a signature and there are unlock data from which computing the hash crashes (C144_hashes), with the redeem scripts found in the inputs. -/
theorem C144_verify (H : Hashes) (C : Btc.Curve) (hC : ∀ k, C.decompress k ≠ []) (text : Bytes) (us : List TxUnlock) :
    verifyRaw H C text us = .panic ↔ ∃ b, HexText text b ∧ (CrashTx b ∨ ∃ x, IsTx b x ∧ x.vins.length = us.length ∧
      (FirstBad VerifyOk VerifyCrash ((witnesses x).zip (x.vins.zip us)) ∨
       ((∀ p ∈ (witnesses x).zip (x.vins.zip us), VerifyOk p) ∧ (x.witness ≠ [] ∧ x.witness.length < x.vins.length ∨
         FirstBad (GoodUnlock (decide (x.vouts ≠ []))) CrashUnlock (((witnesses x).zip (x.vins.zip us)).map found))))) := by
  unfold verifyRaw
  simp only [← Eip.decode_iff text]
  cases hd : Hex.decode text with
  | err => simp
  | panic => exact absurd hd (Hex.decode_ne_panic _)
  | ok b =>
    simp only [Res.bind_ok, Res.ok.injEq, exists_eq_left', ← C144_read, ← C114_language]
    cases ht : BtcLike.decodeTx b with
    | err => simp
    | panic => simp
    | ok x =>
      have hT := (C114_language _ _).mp ht
      have hR := isTx_read hT
      simp only [Res.bind_ok, reduceCtorEq, false_or, Res.ok.injEq, exists_eq_left']
      by_cases hl : x.vins.length = us.length
      swap
      · rw [if_pos hl]; simp [hl]
      rw [if_neg (by simpa using hl)]
      simp only [hl, true_and]
      have hwl : x.witness.length ≤ x.vins.length := by
        obtain ⟨body, _, _, _, ⟨_, h, _⟩ | ⟨wits, f, _, h⟩⟩ := hT
        · rw [h]; simp
        · rw [← f.length_eq]; omega
      have hW : witnesses x = (if decide (x.witness = []) then x.vins.map (fun _ => ⟨none, []⟩) else x.witness.drop 0) := by
        unfold witnesses
        simp only [decide_eq_true_eq, List.drop_zero]
      have hWl : (witnesses x).length ≤ x.vins.length := by
        unfold witnesses; split <;> simp [hwl]
      have hWs : (witnesses x).length < x.vins.length ↔ x.witness ≠ [] ∧ x.witness.length < x.vins.length := by
        unfold witnesses
        split
        · rename_i h; simp [h]
        · rename_i h; simp [h]
      obtain ⟨c1, c2, c3⟩ := readSigs_cases (decide (x.witness = [])) x.witness x.vins us 0 (witnesses x) hl hWl hW
      refine Iff.trans (b := (readSigs (decide (x.witness = [])) x.witness 0 x.vins us >>= fun y =>
        getHashes H { x with witness := [] } y.2 >>= fun hs => verifyHashes C (hs.map Prod.fst) y.1) = .panic) ?_ ?_
      · cases (readSigs (decide (x.witness = [])) x.witness 0 x.vins us >>= fun y =>
          getHashes H { x with witness := [] } y.2 >>= fun hs => verifyHashes C (hs.map Prod.fst) y.1) <;> simp
      cases hr : readSigs (decide (x.witness = [])) x.witness 0 x.vins us with
      | panic =>
        refine iff_of_true rfl ?_
        rcases c1.mp hr with h | ⟨h1, h2⟩
        · exact .inl h
        · exact .inr ⟨h2, .inl (by rw [← hl]; exact hWs.mp h1)⟩
      | err =>
        refine iff_of_false (by simp) ?_
        rw [hr] at c1 c2
        rintro (h | ⟨h1, h2⟩)
        · exact absurd (c1.mpr (.inl h)) (by simp)
        · by_cases h3 : (witnesses x).length < x.vins.length
          · exact absurd (c1.mpr (.inr ⟨h3, h1⟩)) (by simp)
          · obtain ⟨sps, h, _⟩ := c2.mpr ⟨by omega, h1⟩
            cases h
      | ok q =>
        obtain ⟨sps, us'⟩ := q
        obtain ⟨k1, k2⟩ := c3 _ hr
        simp only at k1 k2
        have hall : ∀ p ∈ (witnesses x).zip (x.vins.zip us), VerifyOk p := (c2.mp ⟨sps, by rw [hr, k1], k2⟩).2
        have hfull : (witnesses x).length = x.vins.length := (c2.mp ⟨sps, by rw [hr, k1], k2⟩).1
        have hnf : ¬ FirstBad VerifyOk VerifyCrash ((witnesses x).zip (x.vins.zip us)) := by
          intro h
          have := c1.mpr (.inl h)
          rw [hr] at this; cases this
        have hns : ¬ (x.witness ≠ [] ∧ x.witness.length < us.length) := by
          rw [← hl, ← hWs]; omega
        simp only [Res.bind_ok, hnf, hns, false_or]
        rw [and_iff_right hall]
        have hR' : Read { x with witness := [] } := ⟨hR.ins, hR.outs, by simp⟩
        have hlen : us'.length = x.vins.length := by
          rw [k1, List.length_map, List.length_zip, List.length_zip]; omega
        have := getHashes_panic H hR' us'
        simp only [hlen, true_and] at this
        rw [← k1, ← this]
        cases hg : getHashes H { x with witness := [] } us' with
        | panic => simp
        | err => simp
        | ok hs =>
          simp only [Res.bind_ok]
          refine iff_of_false (verifyHashes_ne_panic hC _ _ ?_) (by simp)
          unfold getHashes at hg
          split at hg
          · cases hg
          · rw [List.length_map, hashLoop_length H _ _ _ _ hg, hlen, k2]

/-- C144: making a multi-signature address never crashes; neither does signing, unless the curve does. -/
theorem C144_never (H : Hashes) :
    (∀ required keys, BtcLike.createMultiSig H required keys ≠ .panic) ∧
    (∀ (S : Signer), (∀ k h, S.sign k h ≠ .panic) → (∀ k, S.pub k ≠ .panic) → ∀ hashes us, signHashes S hashes us ≠ .panic) := by
  constructor
  · intro required keys
    unfold BtcLike.createMultiSig
    refine Btc.bind_ne_panic ?_ fun r _ => Btc.bind_ne_panic ?_ (by simp)
    · unfold Btc.multiRedeem
      split
      · simp
      split
      · simp
      split
      · simp
      split
      · simp
      dsimp only
      split <;> simp
    · unfold BtcLike.encodeCheck
      obtain ⟨a, ha, _⟩ := CheckMem.encodeCheck_total H [p2shPrefix] (H.hash .hash160 ([0x00, 0x20] ++ H.hash .sha256 r))
      rw [ha]; simp
  · intro S h1 h2 hashes us
    unfold signHashes
    refine Btc.bind_ne_panic ?_ fun hs _ => ?_
    · exact CreatePanic.loop_ne_panic (L := decodeAll) (f := Hex.decode) rfl (fun _ _ => rfl) (Hex.decode_ne_panic) hashes
    · split
      · simp
      · clear * - h1 h2
        induction hs generalizing us with
        | nil => cases us <;> simp [calcSigPubs]
        | cons h hs ih =>
          cases us with
          | nil => simp [calcSigPubs]
          | cons u us =>
            rw [calcSigPubs]
            split
            · simp
            split
            · simp
            exact Btc.bind_ne_panic (h1 _ _) fun _ _ => Btc.bind_ne_panic (h2 _) fun _ _ => Btc.bind_ne_panic (ih us) (by simp)

end Verif
