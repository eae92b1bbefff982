import Verif.Props.BtcLike
import Verif.Props.BtcLikeSign

/-! Properties of `btcLikeTxDriver`: where C115 and C116 fail, and signing in one step. -/

namespace Verif
open Verif.Spec Verif.BtcLike
open _root_.Verif.Btc (Curve)

namespace BtcLike

theorem fresh_one {u : TxUnlock} {s : Spend} (f : Fresh u s) : List.Forall₂ Fresh [u] [s] := .cons f .nil

theorem der_short {R : Bytes} {n : Nat} (h : IsDerInt R n) (hn : n < 2 ^ 247) : R.length ≤ 31 := by
  have hv := h.value
  match R, h with
  | [], h => simp
  | [x], h => simp
  | x :: y :: R, h =>
    by_contra hl
    simp only [List.length_cons] at hl
    rw [beNat_cons, beNat_cons] at hv
    simp only [List.length_cons] at hv
    have hp : 256 ^ 30 ≤ 256 ^ R.length := Nat.pow_le_pow_right (by decide) (by omega)
    by_cases hx : x = 0
    · subst hx
      have hy := h.minimal y R rfl
      have : 0x80 * 256 ^ 30 ≤ y.toNat * 256 ^ R.length := Nat.mul_le_mul hy hp
      have e : (0x80 * 256 ^ 30 : Nat) = 2 ^ 247 := by norm_num
      omega
    · have hx' : 1 ≤ x.toNat := by
        rcases Nat.eq_zero_or_pos x.toNat with h | h
        · exact absurd (UInt8.toNat_inj.mp h) hx
        · exact h
      have : 1 * 256 ^ (R.length + 1) ≤ x.toNat * 256 ^ (R.length + 1) := Nat.mul_le_mul hx' (Nat.le_refl _)
      have hq : 256 ^ 31 ≤ 256 ^ (R.length + 1) := Nat.pow_le_pow_right (by decide) (by omega)
      have e : (2 ^ 247 : Nat) ≤ 256 ^ 31 := by norm_num
      omega

theorem encodeTx_multi_err {H : Hashes} {t : Tx} (hm : t.isMultiSig = true) (hw : t.witness = []) : encodeTx H t = .err := by
  unfold encodeTx
  rw [if_pos hm, if_pos hw]
  split
  · rfl
  · split <;> rfl

theorem spend_one_length {t : RawTx} {i : RawIn} (hi : t.ins = [i]) {s : Spend} {k : Bytes} (ho : s.out = .native k) :
    (t.spend [s]).length = (leBytes 4 t.version ++ [0x00, 0x01] ++ compactSize 1 ++ ({ i with script := [] } : RawIn).ser ++ compactSize t.outs.length ++
      (t.outs.map RawOut.ser).flatten).length + (stackBytes [s.der, s.pub]).length + 4 := by
  simp [RawTx.spend, RawTx.withScripts, RawTx.serWitness, ho, KeyOutput.isWitness, KeyOutput.script, KeyOutput.stack, hi]
  omega

end BtcLike

/-- C116 is false for signatures with a small r: in a witness the zeros in front of r are kept, so that the signature is not canonical DER, which
the chain rejects. -/
theorem C116_short_r_violated (H : Hashes) (t : RawTx) (small : Small t) (i : RawIn) (hi : t.ins = [i]) (u : TxUnlock) (s : Spend) (k : Bytes)
    (ho : s.out = .native k) (f : Fresh u s) (hs : s.sig.length = 64) (hp : s.pub.length = 33) (hd : IsSigAll s.sig s.der)
    (hr : beNat (s.sig.take 32) < 2 ^ 247) :
    ∃ text us', insertSignatures H (Hex.encode t.ser) [⟨some s.sig, s.pub⟩] [u] = .ok (text, us') ∧ text ≠ Hex.encode (t.spend [s]) := by
  obtain ⟨d, hw⟩ := exists_written hs hp (fun h => by simp [ho, KeyOutput.isWitness] at h)
  have hf' : Fresh u { s with der := d } := ⟨f.desc, f.redeem⟩
  have h := insert_written (H := H) small (fresh_one hf') (by simp [hi]) (by simpa using hw) (by simp [ho, KeyOutput.script])
    (by intro x h k' hx hn; simp only [List.head?_cons, Option.some.injEq] at hx; subst hx; simp [ho] at hn)
  refine ⟨_, _, h, ?_⟩
  intro he
  have he := congrArg List.length (Hex.encode_inj he)
  rw [spend_one_length hi ho, spend_one_length hi (s := { s with der := d }) ho] at he
  have hdw := hw.wit (by simp [ho, KeyOutput.isWitness])
  simp only at hdw
  obtain ⟨R, S, hR, hS, hrs⟩ := hd
  have l1 := der_short hR hr
  have lw1 := widen_length (x := s.sig.take 32) (by rw [List.length_take, hs]; rfl)
  have lw2 := widen_length (x := s.sig.drop 32) (by rw [List.length_drop, hs])
  have lS : S.length ≤ (widen (s.sig.drop 32)).length := by
    rcases Nat.lt_or_ge (beNat (s.sig.drop 32)) (2 ^ 247) with h | h
    · have := der_short hS h
      omega
    · rw [Btc.IsDerInt.unique hS (widen_der (by rw [List.length_drop, hs]) h)]
  have c1 : d.length < 253 := by have := hw.len; simp only at this; omega
  have c2 : s.der.length < 253 := by rw [hrs]; simp [derSig]; omega
  simp only [stackBytes, varBytes, Btc.compactSize_small c1, Btc.compactSize_small c2, List.map_cons, List.map_nil, List.flatten_cons,
    List.flatten_nil, List.length_append, List.length_cons, List.length_nil] at he
  rw [hdw, hrs] at he
  simp [derSig] at he
  omega

/-- C116 is false for a public key that ends in 0xae: the unlocking script of the only input is taken for a multi-signature script, and the
transaction cannot be made. -/
theorem C116_key_ae_violated (H : Hashes) (t : RawTx) (small : Small t) (i : RawIn) (hi : t.ins = [i]) (u : TxUnlock) (s : Spend) (h : Bytes)
    (ho : s.out = .keyHash h) (f : Fresh u s) (hs : s.sig.length = 64) (hp : s.pub.length = 33)
    (hr : beNat (s.sig.take 32) ≠ 0 ∧ beNat (s.sig.drop 32) ≠ 0) (hae : s.pub.getLast? = some 0xae) :
    insertSignatures H (Hex.encode t.ser) [⟨some s.sig, s.pub⟩] [u] = .err := by
  obtain ⟨d, hw⟩ := exists_written hs hp (fun _ => hr)
  have hf' : Fresh u { s with der := d } := ⟨f.desc, f.redeem⟩
  have hm := isMultiSig_false hf' (by simp [ho])
  have hloop := insertLoop_eq (k := 0) (ws := []) (fresh_one hf') (by simpa using hw)
  unfold insertSignatures
  rw [Hex.decode_encode, Res.bind_ok, decodeTx_ser small, Res.bind_ok, if_neg (by simp), if_neg (by simp), if_neg small.ins_ne,
    if_neg small.outs_ne, if_neg (by simp [ofRaw, hi])]
  simp only [index, List.getElem?_cons_zero, Res.bind_ok]
  rw [hm, if_neg (by simp), show (ofRaw t []).vins.length = [s].length by simp [ofRaw, hi]]
  simp only [List.map_cons, List.map_nil, List.length_cons, List.length_nil] at hloop ⊢
  rw [show (ofRaw t []).witness = [] from rfl, hloop, Res.bind_ok]
  simp only
  rw [setScripts_ofRaw]
  have he : encodeTx H ⟨(ofRaw (t.withScripts [s.out.script d s.pub]) []).version, (ofRaw (t.withScripts [s.out.script d s.pub]) []).vins,
      (ofRaw (t.withScripts [s.out.script d s.pub]) []).vouts, witsFrom 0 [] [{ s with der := d }],
      (ofRaw (t.withScripts [s.out.script d s.pub]) []).lockTime⟩ = .err := by
    refine encodeTx_multi_err ?_ ?_
    rotate_left
    · simp [witsFrom, ho, KeyOutput.isWitness]
    · simp only [Tx.isMultiSig, ofRaw, RawTx.withScripts, hi, List.zipWith_cons_cons, List.zipWith_nil_left, List.map_cons, List.map_nil, ofIn, ho,
        KeyOutput.script]
      rw [show push d ++ push s.pub = (push d ++ [UInt8.ofNat s.pub.length]) ++ s.pub by simp [push],
        List.getLast?_append_of_ne_nil _ (List.ne_nil_of_length_pos (by omega)), hae]
      rfl
  rw [he]
  rfl

/-- C116 is false across calls: computing the hashes writes the locking script of a native witness output into the redeem script of the caller's
data; inserting the signature with the same data then adds an unlocking script, which the chain does not allow. -/
theorem C116_reuse_violated (H : Hashes) (t : RawTx) (small : Small t) (i : RawIn) (hi : t.ins = [i]) (u : TxUnlock) (s : Spend) (k : Bytes)
    (ho : s.out = .native k) (f : Fresh u s) (good : s.Good) (hk : k.getLast? ≠ some 0xae) :
    ∃ hashes us' text us'', createHashes H (Hex.encode t.ser) [u] = .ok (hashes, us') ∧
      insertSignatures H (Hex.encode t.ser) [⟨some s.sig, s.pub⟩] us' = .ok (text, us'') ∧ text ≠ Hex.encode (t.spend [s]) := by
  have g := good.written
  have hg := getHashes_eq (H := H) small (us := [u]) (ss := [s]) (.cons f.desc .nil) (by simp [hi])
  have ok := f.desc.ok
  rw [ho] at ok
  simp only [KeyOutput.Ok] at ok
  have hlock := f.desc.lock
  rw [ho] at hlock
  simp only [KeyOutput.lock] at hlock
  have hlne : u.lockScript ≠ [] := by
    intro e
    rw [e] at hlock
    simp [Hex.decode, witnessV0Script] at hlock
  have hl0 : u.lockScript ≠ asc "00" := by
    intro e
    rw [e, show Hex.decode (asc "00") = .ok [0] by decide] at hlock
    simp [witnessV0Script, push] at hlock
  have hlen := Hex.decode_length _ _ hlock
  have hc : createHashes H (Hex.encode t.ser) [u] =
      .ok ([Hex.encode (H.hash .doubleSha256 (s.out.preimage (H.hash .doubleSha256) t 0 i s.value))], [{ u with redeemScript := u.lockScript }]) := by
    unfold createHashes
    rw [Hex.decode_encode, Res.bind_ok, decodeTx_ser small, Res.bind_ok, hg, Res.bind_ok]
    simp [hashesFrom, hi, afterHash, ho]
  refine ⟨_, [{ u with redeemScript := u.lockScript }],
    Hex.encode ((t.withScripts [push (witnessV0Script k)]).serWitness [[s.der, s.pub]]), [{ u with redeemScript := u.lockScript }], hc, ?_, ?_⟩
  · unfold insertSignatures
    rw [Hex.decode_encode, Res.bind_ok, decodeTx_ser small, Res.bind_ok, if_neg (by simp), if_neg (by simp), if_neg small.ins_ne,
      if_neg small.outs_ne, if_neg (by simp [ofRaw, hi])]
    simp only [index, List.getElem?_cons_zero, Res.bind_ok]
    rw [show isMultiSig u.lockScript u.lockScript = false by
      unfold isMultiSig
      rw [if_pos (by rw [hlen]; simp [witnessV0Script, push, ok])], if_neg (by simp), show (ofRaw t []).vins.length = 1 by simp [ofRaw, hi]]
    simp only [insertLoop, hlne, false_and, if_false, hl0, Option.getD_some, g.sig, g.pub, ne_eq, not_true_eq_false, redeemPush, hlock, Res.bind_ok]
    rw [setScripts_ofRaw]
    have sm : Small (t.withScripts [push (witnessV0Script k)]) :=
      small_withScripts small (by simp [hi]) (by simp [push, witnessV0Script, ok])
    have pl : Plain (t.withScripts [push (witnessV0Script k)]) := by
      intro j hj
      simp only [RawTx.withScripts, hi, List.zipWith_cons_cons, List.zipWith_nil_left, List.cons.injEq, and_true] at hj
      rw [← hj]
      simp only
      rw [show push (witnessV0Script k) = [UInt8.ofNat (witnessV0Script k).length, 0x00, UInt8.ofNat k.length] ++ k by simp [push, witnessV0Script],
        List.getLast?_append_of_ne_nil _ (List.ne_nil_of_length_pos (by omega))]
      exact hk
    have he := encodeTx_serWitness (H := H) sm pl (ws := padWitness 0 (ofRaw t []).witness ++ [⟨some s.sig, s.pub⟩]) (sts := [[s.der, s.pub]])
      (by simp) (by
        simp only [ofRaw, padWitness, if_true, List.replicate_zero, List.nil_append]
        refine .cons ?_ .nil
        have := encodeWitness_witOf g
        simpa [witOf, ho, KeyOutput.isWitness, KeyOutput.stack] using this)
    simp only [push] at he ⊢
    exact congrArg (fun r : Res Bytes => r >>= fun b => Res.ok (Hex.encode b, [{ u with redeemScript := u.lockScript }])) he
  · intro he
    have he := congrArg List.length (Hex.encode_inj he)
    rw [spend_one_length hi ho] at he
    have c : (push (witnessV0Script k)).length < 253 := by simp [push, witnessV0Script, ok]
    simp only [RawTx.serWitness, RawTx.withScripts, hi, List.zipWith_cons_cons, List.zipWith_nil_left, List.map_cons, List.map_nil, RawIn.ser, varBytes,
      RawIn.outpoint, Btc.compactSize_small c, Btc.compactSize_small (n := 0) (by decide), List.length_nil] at he
    simp [push, witnessV0Script, ok] at he
    omega

/-- C116 is false across calls (2): inserting a signature overwrites the locking script of a native witness output in the caller's data; verifying
the result with the same data panics. -/
theorem C116_verify_after_insert_violated (H : Hashes) (C : Curve) (t : RawTx) (small : Small t) (i : RawIn) (hi : t.ins = [i]) (u : TxUnlock) (s : Spend)
    (k : Bytes) (ho : s.out = .native k) (f : Fresh u s) (good : s.Good) :
    ∃ text us', insertSignatures H (Hex.encode t.ser) [⟨some s.sig, s.pub⟩] [u] = .ok (text, us') ∧ verifyRaw H C text us' = .panic := by
  have g := good.written
  have h := insert_written (H := H) small (fresh_one f) (by simp [hi]) (by simpa using g) (by simp [ho, KeyOutput.script])
    (by intro x h k' hx hn; simp only [List.head?_cons, Option.some.injEq] at hx; subst hx; simp [ho] at hn)
  refine ⟨_, _, h, ?_⟩
  have hd := decode_signed small (us := [u]) (ss := [s]) (.cons f.desc .nil) (by simp [hi]) (by simpa using g)
  unfold verifyRaw
  rw [Hex.decode_encode, Res.bind_ok, hd, Res.bind_ok, if_neg (by simp [ofRaw, RawTx.withScripts, hi])]
  have hw : witsFrom 0 [] [s] = [⟨some s.sig, s.pub⟩] := by simp [witsFrom, ho, KeyOutput.isWitness, padWitness, witOf]
  have hr : readSigs (decide ((ofRaw (t.withScripts ([s].map fun s => s.out.script s.der s.pub)) (witsFrom 0 [] [s])).witness = []))
      (ofRaw (t.withScripts ([s].map fun s => s.out.script s.der s.pub)) (witsFrom 0 [] [s])).witness 0
      (ofRaw (t.withScripts ([s].map fun s => s.out.script s.der s.pub)) (witsFrom 0 [] [s])).vins (List.zipWith afterInsert [s] [u]) = .panic := by
    simp only [ofRaw, hw, RawTx.withScripts, hi, List.map_cons, List.map_nil, List.zipWith_cons_cons, List.zipWith_nil_left, ofIn, ho, KeyOutput.script,
      afterInsert]
    rw [readSigs]
    simp only [index, List.getElem?_cons_zero, List.cons_ne_nil, decide_false, Bool.false_eq_true, if_false, Res.bind_ok]
    rw [if_neg (by decide)]
    rfl
  rw [hr]
  rfl

/-- C116 is false for too few signatures: there is no error, inserting panics. -/
theorem C116_few_signatures_violated (H : Hashes) (t : RawTx) (small : Small t) (i j : RawIn) (is : List RawIn) (hi : t.ins = i :: j :: is) (u : TxUnlock)
    (us : List TxUnlock) (hu : us.length = is.length + 1) (s : Spend) (f : Fresh u s) (good : s.Good) (ae : NotAe s) :
    insertSignatures H (Hex.encode t.ser) [⟨some s.sig, s.pub⟩] (u :: us) = .panic := by
  have g := good.written
  unfold insertSignatures
  rw [Hex.decode_encode, Res.bind_ok, decodeTx_ser small, Res.bind_ok, if_neg (by simp), if_neg (by simp), if_neg small.ins_ne,
    if_neg small.outs_ne, if_neg (by simp [ofRaw, hi, hu])]
  simp only [index, List.getElem?_cons_zero, Res.bind_ok]
  rw [isMultiSig_false f (by intro h k hn; simpa [NotAe, hn] using ae), if_neg (by simp),
    show (ofRaw t []).vins.length = is.length + 1 + 1 by simp [ofRaw, hi]]
  have hrest : ∀ k us ws, insertLoop (is.length + 1) k [] us ws = .panic := fun _ _ _ => by rw [insertLoop]
  have hloop : ∀ ws, insertLoop (is.length + 1 + 1) 0 [⟨some s.sig, s.pub⟩] (u :: us) ws = .panic := by
    intro ws
    simp only [insertLoop]
    rw [if_neg (by simp [g.sig]), if_neg (by simp [g.pub])]
    cases ho : s.out with
    | keyHash h =>
      have hr : u.redeemScript = [] := f.redeem (by simp [ho])
      have hw : isWitnessLock u.lockScript = false := by
        rw [Bool.eq_false_iff]; intro hc; obtain ⟨k', hk⟩ := f.desc.witness_iff.mp hc; rw [ho] at hk; cases hk
      simp only [hw, Bool.false_eq_true, and_false, if_false, hr, if_true]
      rw [g.key (by rw [ho]; rfl), Res.bind_ok, Res.bind_ok]
      rfl
    | nested h k' =>
      have hd := f.desc.nested h k' ho
      have hr : u.redeemScript ≠ [] := by
        intro e; rw [e] at hd; simp [Hex.decode, witnessV0Script] at hd
      simp only [hr, false_and, if_false, redeemPush, hd, Res.bind_ok]
      split <;> rfl
    | native k' =>
      have hr : u.redeemScript = [] := f.redeem (by simp [ho])
      have hw : isWitnessLock u.lockScript = true := f.desc.witness_iff.mpr ⟨k', ho⟩
      have hl : u.lockScript ≠ [] := by
        intro e
        have := f.desc.lock
        rw [e, ho] at this
        simp [Hex.decode, KeyOutput.lock, witnessV0Script] at this
      simp only [hr, hw, and_self, if_true, hl, if_false, Res.bind_ok]
      rfl
  rw [hloop]
  rfl

/-! ### Examples -/

namespace BtcLike

def demoSig : Bytes := List.replicate 64 0x11
def demoDer : Bytes := derSig (List.replicate 32 0x11) (List.replicate 32 0x11) ++ [0x01]
def demoPub : Bytes := 2 :: List.replicate 32 10
def demoKey : Spend := ⟨.keyHash (List.replicate 20 5), 7, demoSig, demoPub, demoDer⟩
def demoNested : Spend := ⟨.nested (List.replicate 20 5) (List.replicate 20 6), 8, demoSig, demoPub, demoDer⟩
def demoNative : Spend := ⟨.native (List.replicate 20 5), 9, demoSig, demoPub, demoDer⟩
def uKey : TxUnlock := ⟨List.replicate 32 1, Hex.encode (p2pkhScript (List.replicate 20 5)), [], 7⟩
def uNested : TxUnlock := ⟨List.replicate 32 1, Hex.encode (p2shScript (List.replicate 20 5)), Hex.encode (witnessV0Script (List.replicate 20 6)), 8⟩
def uNative : TxUnlock := ⟨List.replicate 32 1, Hex.encode (witnessV0Script (List.replicate 20 5)), [], 9⟩

theorem demo_der : IsSigAll demoSig demoDer := by
  have h : IsDerInt (List.replicate 32 (0x11 : UInt8)) (beNat (List.replicate 32 0x11)) := by
    refine ⟨rfl, by decide, by decide, ?_⟩
    intro y t h
    simp [List.replicate_succ] at h
  exact ⟨_, _, h, h, rfl⟩

theorem demo_good {s : Spend} (h1 : s.sig = demoSig) (h2 : s.pub = demoPub) (h3 : s.der = demoDer) : s.Good := by
  refine ⟨by rw [h1]; rfl, by rw [h2]; rfl, by rw [h1, h3]; exact demo_der, by rw [h1]; decide, by rw [h1]; decide, fun _ => ?_⟩
  rw [h1]
  decide +kernel

theorem fresh_key : Fresh uKey demoKey := ⟨⟨rfl, Hex.decode_encode _, by simp [demoKey], rfl⟩, fun _ => rfl⟩
theorem fresh_nested : Fresh uNested demoNested :=
  ⟨⟨⟨rfl, rfl⟩, Hex.decode_encode _, by
    intro h k e
    simp only [demoNested, KeyOutput.nested.injEq] at e
    rw [← e.2]
    exact Hex.decode_encode _, rfl⟩, fun h => absurd rfl (h _ _)⟩
theorem fresh_native : Fresh uNative demoNative := ⟨⟨rfl, Hex.decode_encode _, by simp [demoNative], rfl⟩, fun _ => rfl⟩

/-- A transaction with three inputs. -/
def demo3 : RawTx :=
  { version := 2
    ins := [⟨List.replicate 32 9, 0, [], 0xffffffff⟩, ⟨List.replicate 32 9, 1, [], 0xffffffff⟩, ⟨List.replicate 32 8, 1, [], 0xfffffffe⟩]
    outs := [⟨1000, p2pkhScript (List.replicate 20 5)⟩, ⟨2000, p2shScript (List.replicate 20 6)⟩]
    lockTime := 77 }

theorem demo3_small : Small demo3 := by
  refine ⟨by decide, by decide, by decide, by decide, ?_, ?_⟩ <;> decide

theorem demo1_small : Small Btc.demoTx := by
  refine ⟨by decide, by decide, by decide, by decide, ?_, ?_⟩ <;> decide

end BtcLike

-- the hypotheses of the theorems on C115 and C116 can be met, with all three kinds of output in one transaction
example (H : Hashes) : ∃ us', insertSignatures H (Hex.encode demo3.ser) ([demoKey, demoNested, demoNative].map fun s => ⟨some s.sig, s.pub⟩)
    [uKey, uNested, uNative] = .ok (Hex.encode (demo3.spend [demoKey, demoNested, demoNative]), us') := by
  refine C116_insert_partial H demo3 demo3_small _ _ (.cons fresh_key (.cons fresh_nested (.cons fresh_native .nil))) rfl ?_ (by simp)
    (by
      rintro s h k hs ho
      simp only [List.head?_cons, Option.some.injEq] at hs
      subst hs
      simp [demoKey] at ho)
  intro s hs
  simp only [List.mem_cons, List.not_mem_nil, or_false] at hs
  rcases hs with rfl | rfl | rfl <;> exact demo_good rfl rfl rfl

example (H : Hashes) (C : Curve) (sps : List SigPub) : insertSignatures H (Hex.encode demo3.ser) sps [uKey, uNested] = .err ∧
    verifyRaw H C (Hex.encode demo3.ser) [uKey, uNested, uNative, uKey] = .ok false :=
  ⟨(C116_count H C demo3 demo3_small _ sps (by decide)).1, (C116_count H C demo3 demo3_small _ sps (by decide)).2⟩

example (H : Hashes) : ∃ hashes us', createHashes H (Hex.encode demo3.ser) [uKey, uNested, uNative] = .ok (hashes, us') ∧ hashes.length = 3 := by
  obtain ⟨a, b, h1, h2, _⟩ := C115_hashes_partial H demo3 demo3_small [uKey, uNested, uNative]
    [(demoKey.out, 7), (demoNested.out, 8), (demoNative.out, 9)] (.cons fresh_key.desc (.cons fresh_nested.desc (.cons fresh_native.desc .nil))) rfl
  exact ⟨a, b, h1, h2⟩

example (H : Hashes) : ∃ text us', insertSignatures H (Hex.encode Btc.demoTx.ser) [⟨some demoSig, demoPub⟩] [uNative] = .ok (text, us') ∧
    verifyRaw H (Btc.oneKeyCurve demoPub) text us' = .panic :=
  C116_verify_after_insert_violated H _ _ demo1_small _ rfl _ demoNative _ rfl fresh_native (demo_good rfl rfl rfl)

example (H : Hashes) : ∃ hashes us' text us'', createHashes H (Hex.encode Btc.demoTx.ser) [uNative] = .ok (hashes, us') ∧
    insertSignatures H (Hex.encode Btc.demoTx.ser) [⟨some demoSig, demoPub⟩] us' = .ok (text, us'') ∧ text ≠ Hex.encode (Btc.demoTx.spend [demoNative]) :=
  C116_reuse_violated H _ demo1_small _ rfl _ demoNative _ rfl fresh_native (demo_good rfl rfl rfl) (by decide)

example (H : Hashes) : insertSignatures H (Hex.encode demo3.ser) [⟨some demoSig, demoPub⟩] [uKey, uNested, uNative] = .panic :=
  C116_few_signatures_violated H _ demo3_small _ _ _ rfl _ _ rfl demoKey fresh_key (demo_good rfl rfl rfl) (by simp [NotAe, demoKey, demoPub])

example (H : Hashes) : ∃ text us' answer, insertSignatures H (Hex.encode demo3.ser) ([demoKey, demoNested, demoNative].map fun s => ⟨some s.sig, s.pub⟩)
    [uKey, uNested, uNative] = .ok (text, us') ∧ verifyRaw H (Btc.oneKeyCurve demoPub) text [uKey, uNested, uNative] = .ok answer := by
  obtain ⟨a, b, c, h1, h2, _⟩ := C116_roundtrip_partial H (Btc.oneKeyCurve demoPub) demo3 demo3_small _ _
    (.cons fresh_key (.cons fresh_nested (.cons fresh_native .nil))) rfl
    (by decide +kernel) (by decide +kernel) (by simp [NotAe, demoKey, demoNested, demoNative, demoPub]) (by decide)
  exact ⟨a, b, c, h1, h2⟩

-- a signature with a small r exists, and a key that ends in 0xae
example (H : Hashes) : ∃ text us', insertSignatures H (Hex.encode Btc.demoTx.ser) [⟨some (0 :: List.replicate 63 0x11), demoPub⟩] [uNative] = .ok (text, us') ∧
    text ≠ Hex.encode (Btc.demoTx.spend [⟨.native (List.replicate 20 5), 9, 0 :: List.replicate 63 0x11, demoPub,
      derSig (List.replicate 31 0x11) (List.replicate 32 0x11) ++ [0x01]⟩]) := by
  refine C116_short_r_violated H _ demo1_small _ rfl _ ⟨.native (List.replicate 20 5), 9, 0 :: List.replicate 63 0x11, demoPub, _⟩ _ rfl
    ⟨⟨rfl, Hex.decode_encode _, by simp, rfl⟩, fun _ => rfl⟩ rfl rfl ?_ (by decide +kernel)
  refine ⟨List.replicate 31 0x11, List.replicate 32 0x11, ⟨by decide +kernel, by decide, by decide, ?_⟩, ⟨by decide +kernel, by decide, by decide, ?_⟩, rfl⟩ <;>
    · intro y t h
      simp [List.replicate_succ] at h

example (H : Hashes) : insertSignatures H (Hex.encode Btc.demoTx.ser) [⟨some demoSig, 2 :: List.replicate 31 10 ++ [0xae]⟩] [uKey] = .err :=
  C116_key_ae_violated H _ demo1_small _ rfl _ ⟨.keyHash (List.replicate 20 5), 7, demoSig, 2 :: List.replicate 31 10 ++ [0xae], []⟩ _ rfl
    ⟨⟨rfl, Hex.decode_encode _, by simp, rfl⟩, fun _ => rfl⟩ rfl rfl (by decide +kernel) (by decide)

-- C114: transactions that are parsed, that are refused and that make parsing panic
example : demo3.ser[4]? ≠ some 0 ∧ ∃ x, decodeTx demo3.ser = .ok x := ⟨by decide, _, C114_parse_partial _ demo3_small⟩
example : decodeTx (Btc.demoTx.serWitness [[[1], List.replicate 33 2]]) = .panic :=
  C114_witness_panics_violated _ demo1_small _ rfl _ _ (by decide) (by decide) (by decide) rfl

/-- C116 is false for the identity of the key: a signature of any key is accepted for any key hash, as long as it verifies for the hash of the
input. Stated for a transaction that is accepted, given an output of which the key hash is not that of the key. -/
theorem C116_wrong_key_violated (H : Hashes) (C : Curve) (t : RawTx) (small : Small t) (i : RawIn) (hi : t.ins = [i]) (u : TxUnlock) (s : Spend) (h : Bytes)
    (ho : s.out = .keyHash h) (f : Fresh u s) (good : s.Good) (read : beNat (s.sig.take 32) < 2 ^ 247 ∨ 2 ^ 231 ≤ beNat (s.sig.drop 32))
    (hp : (C.decompress s.pub).length ≠ 0) (_hwrong : H.hash .hash160 s.pub ≠ h)
    (hv : C.verify ((C.decompress s.pub).drop 1) (H.hash .doubleSha256 (legacyPreimage t 0 (p2pkhScript h))) s.sig = true) :
    verifyRaw H C (Hex.encode (t.spend [s])) [u] = .ok true := by
  obtain ⟨b, hb, hiff⟩ := C116_verify_partial H C t small [u] [s] (.cons f.desc .nil) (by simp [hi]) (by simpa using good)
    (by simpa using fun _ => read) (by simpa using hp)
  rw [hb, hiff.mpr]
  intro k j s' h1 h2
  cases k with
  | zero =>
    simp only [List.getElem?_cons_zero, Option.some.injEq] at h2
    subst h2
    rw [ho]
    exact hv
  | succ k => simp at h2

example : verifyRaw toyHashes (Btc.oneKeyCurve demoPub) (Hex.encode (Btc.demoTx.spend [demoKey])) [uKey] = .ok true :=
  C116_wrong_key_violated toyHashes _ _ demo1_small _ rfl _ demoKey _ rfl fresh_key (demo_good rfl rfl rfl) (.inr (by decide +kernel)) (by decide)
    (by decide +kernel) (by decide +kernel)

/-- C115 is false for short locking scripts: one of 22 bytes that begins like pay to public key hash makes the call panic. -/
theorem C115_short_script_violated (H : Hashes) (t : RawTx) (small : Small t) (u : TxUnlock) (us : List TxUnlock) (hl : t.ins.length = us.length + 1)
    (x : Bytes) (hx : x.length = 19) (hlock : Hex.decode u.lockScript = .ok ([0x76, 0xa9, 0x14] ++ x)) :
    createHashes H (Hex.encode t.ser) (u :: us) = .panic := by
  have hc : checkScriptType ([0x76, 0xa9, 0x14] ++ x) = .panic := by
    have h0 : index ([0x76, 0xa9, 0x14] ++ x) 23 = .panic := index_panic (by simp [hx])
    have h1 : index ([0x76, 0xa9, 0x14] ++ x) 0 = .ok 0x76 := rfl
    have h2 : index ([0x76, 0xa9, 0x14] ++ x) 1 = .ok 0xa9 := rfl
    have h3 : index ([0x76, 0xa9, 0x14] ++ x) 2 = .ok 0x14 := rfl
    unfold checkScriptType
    simp only [allAt, h0, h1, h2, h3, Res.bind_ok, if_true]
    rfl
  have hi : ∃ i, index (ofRaw t []).vins 0 = .ok i := ⟨_, index_ok (by simp [ofRaw]; omega)⟩
  obtain ⟨i, hi⟩ := hi
  unfold createHashes
  rw [Hex.decode_encode, Res.bind_ok, decodeTx_ser small, Res.bind_ok]
  unfold getHashes
  rw [if_neg (by
    rintro (h | h)
    · exact small.ins_ne h
    · exact h (by simp [ofRaw, hl])), hashLoop]
  unfold hashOne
  rw [hlock, Res.bind_ok, if_neg (by simp [hx]), hi, Res.bind_ok, hc]
  rfl

example : createHashes toyHashes (Hex.encode Btc.demoTx.ser) [⟨[], Hex.encode ([0x76, 0xa9, 0x14] ++ List.replicate 19 5), [], 0⟩] = .panic :=
  C115_short_script_violated _ _ demo1_small _ [] rfl (List.replicate 19 5) rfl (Hex.decode_encode _)

end Verif
