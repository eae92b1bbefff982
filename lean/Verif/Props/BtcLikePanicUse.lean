import Verif.Props.BtcLikePanicSign
import Verif.Props.BtcLikeSigner

/-! C144: when signing in one step crashes in the older Bitcoin driver, and usual arguments that crash. -/

namespace Verif
open Spec Spec.Crash Spec.Eip55 Spec.BtcLikeWire BtcLike

namespace BtcLike

/-- A signature that is written down everywhere. -/
def Usable (w : SigPub) : Prop := ∃ sig, w.signature = some sig ∧ 33 ≤ sig.length ∧ ¬ Unwritable sig

theorem low_usable {sig pub : Bytes} (hl : sig.length = 64) (h1 : beNat (sig.take 32) ≠ 0) (h2 : beNat (sig.drop 32) ≠ 0)
    (h3 : beNat (sig.drop 32) < Btc.curveOrder) : Usable ⟨some (Btc.serilizeS sig), pub⟩ := by
  obtain ⟨p1, p2, _⟩ := C26_low_s_partial sig hl h3
  have hs : beNat ((Btc.serilizeS sig).drop 32) ≠ 0 := by rw [p2]; omega
  have zero : ∀ l : Bytes, (∀ x ∈ l, x = 0) → beNat l = 0 := by
    intro l hz
    rw [List.eq_replicate_of_mem hz]
    generalize l.length = n
    induction n with
    | zero => rfl
    | succ n ih => rw [List.replicate_succ, beNat_cons, ih]; simp
  have hlen : 33 ≤ (Btc.serilizeS sig).length := by
    by_contra h
    have : (Btc.serilizeS sig).drop 32 = [] := List.drop_eq_nil_of_le (by omega)
    rw [this] at hs
    exact hs rfl
  refine ⟨_, rfl, hlen, ?_⟩
  rintro (h | h | ⟨_, h⟩)
  · omega
  · rw [p1] at h; exact h1 (zero _ h)
  · exact hs (zero _ h)

theorem calc_cases {S : Signer} (h1 : ∀ k h, S.sign k h ≠ .panic) (h2 : ∀ k, S.pub k ≠ .panic)
    (h3 : ∀ k h sig, S.sign k h = .ok sig → sig.length = 64 ∧ beNat (sig.take 32) ≠ 0 ∧ beNat (sig.drop 32) ≠ 0 ∧ beNat (sig.drop 32) < Btc.curveOrder) :
    ∀ (hs : List Bytes) (us : List TxUnlock), calcSigPubs S hs us ≠ .panic ∧
      ∀ sps, calcSigPubs S hs us = .ok sps → sps.length = us.length ∧ ∀ w ∈ sps, Usable w
  | [], [] => by simp [calcSigPubs]
  | [], _ :: _ => by simp [calcSigPubs]
  | _ :: _, [] => by simp [calcSigPubs]
  | h :: hs, u :: us => by
    obtain ⟨i1, i2⟩ := calc_cases h1 h2 h3 hs us
    rw [calcSigPubs]
    split
    · simp
    split
    · simp
    refine ⟨Btc.bind_ne_panic (h1 _ _) fun _ _ => Btc.bind_ne_panic (h2 _) fun _ _ => Btc.bind_ne_panic i1 (by simp), ?_⟩
    intro sps hok
    obtain ⟨sig, e1, hok⟩ := Res.bind_eq_ok.mp hok
    obtain ⟨pub, e2, hok⟩ := Res.bind_eq_ok.mp hok
    obtain ⟨r, e3, hok⟩ := Res.bind_eq_ok.mp hok
    cases hok
    obtain ⟨q1, q2⟩ := i2 _ e3
    obtain ⟨a, b, c, d⟩ := h3 _ _ _ e1
    refine ⟨by simp [q1], ?_⟩
    intro w hw
    rcases List.mem_cons.mp hw with rfl | hw
    · exact low_usable a b c d
    · exact q2 w hw

theorem good_kind {o : Bool} {u : TxUnlock} (h : GoodUnlock o u) : ∃ lock k, Hex.decode u.lockScript = .ok lock ∧ checkScriptType lock = .ok k := by
  obtain ⟨lock, hd, h⟩ := h
  refine ⟨lock, ?_⟩
  rw [Eip.decode_iff]
  have hl : lock.length = 22 ∨ lock.length = 23 ∨ lock.length = 25 := by rcases h with ⟨h, _⟩ | ⟨h, _⟩ | ⟨h, _⟩ <;> omega
  rw [kind_eq hl]
  rcases h with ⟨e, p, q, _⟩ | ⟨e, p, q, _⟩ | ⟨e, p⟩
  · rw [if_pos p, if_neg (by omega), if_pos q]; exact ⟨_, hd, rfl⟩
  · have n : ¬ [0x76, 0xa9, 0x14] <+: lock := by
      rw [prefix3 (by omega)]; rw [prefix2 (by omega)] at p; rw [p.1]; simp
    rw [if_neg n, if_pos p, if_neg (by omega), if_pos q]; exact ⟨_, hd, rfl⟩
  · have n : ¬ [0x76, 0xa9, 0x14] <+: lock := by
      rw [prefix3 (by omega)]; rw [prefix2 (by omega)] at p; rw [p.1]; simp
    have n' : ¬ [0xa9, 0x14] <+: lock := by
      rw [prefix2 (by omega)]; rw [prefix2 (by omega)] at p; rw [p.1]; simp
    rw [if_neg n, if_neg n', if_pos p]; exact ⟨_, hd, rfl⟩

theorem scriptSig_safe {w : SigPub} (h : Usable w) : scriptSig w ≠ .panic := by
  obtain ⟨sig, e, _, hu⟩ := h
  unfold scriptSig Btc.encodeSigPub
  rw [e]
  simp only
  exact Btc.bind_ne_panic (fun h => hu ((CombinePanic.encodeSig_panic _ _).mp h)) (by simp)

theorem signLoop_cases (o : Bool) : ∀ (sps : List SigPub) (us : List TxUnlock) (k : Nat) (ws : List SigPub), sps.length = us.length →
    (∀ u ∈ us, GoodUnlock o u) → (∀ w ∈ sps, Usable w) → (∀ w ∈ ws, Fine w) →
    signLoop k sps us ws ≠ .panic ∧ ∀ y, signLoop k sps us ws = .ok y → ∀ w ∈ y.2, Fine w
  | [], us, k, ws, _, _, _, hf => by
    simp only [signLoop]
    exact ⟨by simp, fun y h => by cases h; exact hf⟩
  | s :: ss, [], k, ws, hl, _, _, _ => by simp at hl
  | s :: ss, u :: us, k, ws, hl, hg, hu, hf => by
    obtain ⟨lock, kind, e1, e2⟩ := good_kind (hg u (by simp))
    have hsf : Fine s := by
      obtain ⟨sig, h1, h2, _⟩ := hu s (by simp)
      exact .inr ⟨sig, h1, h2⟩
    have ih : ∀ ws', (∀ w ∈ ws', Fine w) → _ := fun ws' hf' =>
      signLoop_cases o ss us (k + 1) ws' (by simpa using hl) (fun u h => hg u (by simp [h])) (fun w h => hu w (by simp [h])) hf'
    have step : ∀ (r : Bytes) (ws' : List SigPub), (∀ w ∈ ws', Fine w) →
        ((signLoop (k + 1) ss us ws' >>= fun p => Res.ok (r :: p.1, p.2)) ≠ .panic ∧
          ∀ y, (signLoop (k + 1) ss us ws' >>= fun p => Res.ok (r :: p.1, p.2)) = .ok y → ∀ w ∈ y.2, Fine w) := by
      intro r ws' hf'
      obtain ⟨a, b⟩ := ih ws' hf'
      refine ⟨Btc.bind_ne_panic a (by simp), ?_⟩
      intro y hy
      obtain ⟨p, hp, hy⟩ := Res.bind_eq_ok.mp hy
      cases hy
      exact b p hp
    have f1 : ∀ w ∈ (if ws = [] then padWitness k ws ++ [s] else ws), Fine w := by
      intro w hw
      split at hw
      · rcases List.mem_append.mp hw with hw | hw
        · exact padWitness_fine hf w hw
        · rw [List.mem_singleton] at hw; subst hw; exact hsf
      · exact hf w hw
    have f2 : ∀ w ∈ (if ws = [] then [] else ws ++ [⟨none, []⟩]), Fine w := by
      intro w hw
      split at hw
      · simp at hw
      · rcases List.mem_append.mp hw with hw | hw
        · exact hf w hw
        · rw [List.mem_singleton] at hw; subst hw; exact .inl rfl
    rw [signLoop, e1, Res.bind_ok, e2, Res.bind_ok]
    cases kind with
    | bech32 => exact step _ _ f1
    | p2sh =>
      simp only
      cases hr : redeemPush u.redeemScript with
      | panic => exact absurd hr (redeemPush_cases _).1
      | err => simp
      | ok r => exact step _ _ f1
    | p2pkh =>
      simp only
      cases hr : scriptSig s with
      | panic => exact absurd hr (scriptSig_safe (hu s (by simp)))
      | err => simp
      | ok r => exact step _ _ f2
    | unknown =>
      simp only
      cases hr : scriptSig s with
      | panic => exact absurd hr (scriptSig_safe (hu s (by simp)))
      | err => simp
      | ok r => exact step _ _ f2

end BtcLike

/-- C144, signing in one step: with a curve that does not crash and gives signatures of 64 bytes with r, s in range, `SignEmptyRawTransaction` crashes if and
only if computing the hashes of the same transaction with the same unlock data does (`C144_hashes` says when). -/
theorem C144_sign (H : Hashes) (S : Signer) (h1 : ∀ k h, S.sign k h ≠ .panic) (h2 : ∀ k, S.pub k ≠ .panic)
    (h3 : ∀ k h sig, S.sign k h = .ok sig → sig.length = 64 ∧ beNat (sig.take 32) ≠ 0 ∧ beNat (sig.drop 32) ≠ 0 ∧ beNat (sig.drop 32) < Btc.curveOrder)
    (text : Bytes) (us : List TxUnlock) : signEmpty H S text us = .panic ↔ createHashes H text us = .panic := by
  unfold signEmpty createHashes
  cases hd : Hex.decode text with
  | err => simp
  | panic => simp
  | ok b =>
    simp only [Res.bind_ok]
    cases ht : BtcLike.decodeTx b with
    | err => simp
    | panic => simp
    | ok x =>
      simp only [Res.bind_ok]
      have hR := isTx_read ((C114_language _ _).mp ht)
      cases hg : getHashes H x us with
      | err => simp
      | panic => simp
      | ok hs =>
        simp only [Res.bind_ok]
        refine iff_of_false ?_ (by simp)
        obtain ⟨c1, c2⟩ := calc_cases h1 h2 h3 (hs.map Prod.fst) us
        refine Btc.bind_ne_panic c1 fun sps hs' => ?_
        obtain ⟨d1, d2⟩ := c2 sps hs'
        have good : ∀ u ∈ us, GoodUnlock (decide (x.vouts ≠ [])) u := by
          unfold getHashes at hg
          split at hg
          · cases hg
          · rename_i hn
            exact (hashLoop_panic H hR us 0 (by omega)).2.mp ⟨_, hg⟩
        have wf : ∀ w ∈ x.witness, Fine w := by
          intro w hw
          rcases hR.wits w hw with h | ⟨sig, h, h64, _⟩
          · exact .inl h
          · exact .inr ⟨sig, h, by omega⟩
        obtain ⟨e1, e2⟩ := signLoop_cases _ sps us 0 x.witness d1 good d2 wf
        refine Btc.bind_ne_panic e1 fun y hy => ?_
        exact Btc.bind_ne_panic (encode_safe H _ (e2 y hy)) (by simp)

/-- C144 is false: whatever the transaction, as soon as its transaction ids are in order, an output to the empty address crashes the creation. -/
theorem C144_empty_violated (H : Hashes) (vins : List Btc.Vin) (h : GoodIds vins) (amount : UInt64) (vouts : List Btc.Vout) (lt : UInt32) (r : Bool) :
    createEmpty H vins (⟨[], amount⟩ :: vouts) lt r = .panic := by
  rw [C144_create]
  refine ⟨h, [], _, _, rfl, by simp, ?_⟩
  simp only
  rw [if_neg (by simp [asc])]
  refine ⟨[], ?_, .inl (by simp)⟩
  simp [IsBase58, base58Digits, leadingZeros]

/-- C144 is false: if hashes can be computed, they crash once the locking script of one of the inputs has lost its two last bytes (that of a key hash is
`76 a9 14`, the hash, `88 ac`). -/
theorem C144_cut_script_violated (H : Hashes) (text : Bytes) (us : List TxUnlock) (out : List Bytes × List TxUnlock) (h : createHashes H text us = .ok out)
    (k : Nat) (hk : k < us.length) (kh : Bytes) (hl : kh.length = 20) :
    createHashes H text (us.set k { us[k] with lockScript := Hex.encode ([0x76, 0xa9, 0x14] ++ kh) }) = .panic := by
  rw [C144_hashes]
  unfold createHashes at h
  obtain ⟨b, e1, h⟩ := Res.bind_eq_ok.mp h
  obtain ⟨x, e2, h⟩ := Res.bind_eq_ok.mp h
  obtain ⟨hs, e3, h⟩ := Res.bind_eq_ok.mp h
  have hI := (C114_language _ _).mp e2
  have hR := isTx_read hI
  unfold getHashes at e3
  split at e3
  · cases e3
  rename_i hn
  have hlen : x.vins.length = us.length := by
    by_contra hc
    exact hn (.inr hc)
  have good := (hashLoop_panic H hR us 0 (by omega)).2.mp ⟨_, e3⟩
  refine ⟨b, (Eip.decode_iff _ _).mp e1, .inr ⟨x, hI, by simpa using hlen, ?_⟩⟩
  refine ⟨us.take k, { us[k] with lockScript := Hex.encode ([0x76, 0xa9, 0x14] ++ kh) }, us.drop (k + 1), ?_, fun w hw => good w (List.mem_of_mem_take hw), ?_⟩
  · exact List.set_eq_take_append_cons_drop .. |>.trans (if_pos hk)
  · exact ⟨[0x76, 0xa9, 0x14] ++ kh, (Eip.decode_iff _ _).mp (Hex.decode_encode _), .inl ⟨by simp [hl], List.prefix_append _ _⟩⟩

/-! ### Examples -/

example : GoodIds [⟨Hex.encode (List.replicate 32 7), 1⟩] := by
  intro v hv
  simp only [List.mem_singleton] at hv
  subst hv
  exact ⟨List.replicate 32 7, (Eip.decode_iff _ _).mp (Hex.decode_encode _), by simp⟩

/-- Three inputs, of which the second is given a cut script. -/
example (H : Hashes) : createHashes H (Hex.encode demo3.ser)
    [uKey, { uNested with lockScript := Hex.encode ([0x76, 0xa9, 0x14] ++ List.replicate 20 5) }, uNative] = .panic := by
  obtain ⟨a, b, h1, _⟩ := C115_hashes_partial H demo3 demo3_small [uKey, uNested, uNative]
    [(demoKey.out, 7), (demoNested.out, 8), (demoNative.out, 9)] (.cons fresh_key.desc (.cons fresh_nested.desc (.cons fresh_native.desc .nil))) rfl
  exact C144_cut_script_violated H _ _ _ h1 1 (by simp) (List.replicate 20 5) (by simp)

/-- The hypotheses of `C144_sign` hold of a signer. -/
example (H : Hashes) (text : Bytes) (us : List TxUnlock) : signEmpty H demoSigner text us = .panic ↔ createHashes H text us = .panic :=
  C144_sign H demoSigner (by simp [demoSigner]) (by simp [demoSigner])
    (by intro k h sig e; cases e; exact ⟨rfl, by decide +kernel, by decide +kernel, by decide +kernel⟩) text us

/-- Fewer signatures than inputs: `C144_insert`. -/
example (H : Hashes) : ∃ b, HexText (Hex.encode demo3.ser) b ∧ (CrashTx b ∨ ∃ x, IsTx b x ∧ x.vouts ≠ [] ∧ [(⟨some demoSig, demoPub⟩ : SigPub)] ≠ [] ∧
      x.vins.length = [uKey, uNested, uNative].length ∧ ∃ u ∈ [uKey, uNested, uNative].head?,
        (MultiUnlock u ∧ FirstBad (fun w => (w.signature = none ∧ [uKey, uNested, uNative].length ≠ 1) ∨ ∃ sig, w.signature = some sig ∧ 33 ≤ sig.length)
          (fun w => ∃ sig, w.signature = some sig ∧ sig.length < 33) (x.witness ++ [⟨some demoSig, demoPub⟩])) ∨
        (¬ MultiUnlock u ∧ (FirstBad InsertOk InsertCrash ([⟨some demoSig, demoPub⟩].zip [uKey, uNested, uNative]) ∨
          ([(⟨some demoSig, demoPub⟩ : SigPub)].length < [uKey, uNested, uNative].length ∧
            ∀ p ∈ [(⟨some demoSig, demoPub⟩ : SigPub)].zip [uKey, uNested, uNative], InsertOk p)))) :=
  (C144_insert H _ _ _).mp
    (C116_few_signatures_violated H _ demo3_small _ _ _ rfl _ _ rfl demoKey fresh_key (demo_good rfl rfl rfl) (by simp [NotAe, demoKey, demoPub]))

/-- A transaction is in the language of the decoder. -/
example : ∃ x, IsTx demo3.ser x := ⟨_, (C114_language _ _).mp (C114_parse_partial _ demo3_small)⟩

end Verif
