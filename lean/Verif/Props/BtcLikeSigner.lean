import Verif.Props.BtcLikeLimits

/-! Signing with private keys in the older Bitcoin driver (C116). -/

namespace Verif
open Verif.Spec Verif.BtcLike
open _root_.Verif.Btc (Curve)

namespace BtcLike

/-- The spends whose witness is stored by `SignEmptyRawTransaction`: none behind the first one, but placeholders for the other inputs. -/
def keep : Bool → List Spend → List Spend
  | _, [] => []
  | started, s :: ss => if s.out.isWitness && started then keep started ss else s :: keep (started || s.out.isWitness) ss

theorem keep_sub {b : Bool} {ss : List Spend} : ∀ s ∈ keep b ss, s ∈ ss := by
  induction ss generalizing b with
  | nil => simp [keep]
  | cons s ss ih =>
    intro x hx
    unfold keep at hx
    split at hx
    · exact List.mem_cons_of_mem _ (ih x hx)
    · rcases List.mem_cons.mp hx with rfl | hx
      · simp
      · exact List.mem_cons_of_mem _ (ih x hx)

theorem signLoop_eq : ∀ {k : Nat} {us : List TxUnlock} {ss : List Spend} {ws : List SigPub},
    List.Forall₂ (fun u s => Describes u s.out s.value) us ss → (∀ s ∈ ss, Written s) →
    signLoop k (ss.map fun s => ⟨some s.sig, s.pub⟩) us ws =
      .ok (ss.map (fun s => s.out.script s.der s.pub), witsFrom k ws (keep (decide (ws ≠ [])) ss))
  | k, [], [], ws, .nil, _ => by
    simp only [List.map_nil, signLoop, witsFrom, padWitness, keep, List.any_nil, and_true, List.append_nil]
    by_cases h : ws = [] <;> simp [h]
  | k, u :: us, s :: ss, ws, .cons f fs, g => by
    have gs := g s (by simp)
    have hrest := fun ws' => signLoop_eq (k := k + 1) (ws := ws') fs (fun x hx => g x (by simp [hx]))
    have ok := f.ok
    have hlock := f.lock
    simp only [List.map_cons, signLoop]
    rw [hlock, Res.bind_ok]
    cases ho : s.out with
    | keyHash h =>
      rw [ho] at ok
      have hiw : s.out.isWitness = false := by rw [ho]; rfl
      simp only [KeyOutput.lock, check_keyHash ok, Res.bind_ok]
      rw [gs.key hiw, Res.bind_ok, hrest, Res.bind_ok]
      simp only [keep, hiw, Bool.false_and, Bool.false_eq_true, if_false, Bool.or_false]
      rw [← witsFrom_cons_key hiw]
      by_cases hws : ws = [] <;> simp [hws, KeyOutput.script]
    | nested h k' =>
      rw [ho] at ok
      have hd := f.nested h k' ho
      have hiw : s.out.isWitness = true := by rw [ho]; rfl
      simp only [KeyOutput.lock, check_nested ok.1, Res.bind_ok]
      unfold redeemPush
      rw [hd]
      simp only [Res.bind_ok]
      rw [hrest, Res.bind_ok]
      simp only [keep, hiw, Bool.true_and, Bool.or_true]
      by_cases hws : ws = []
      · simp only [hws, if_true, ne_eq, not_true_eq_false, decide_false, Bool.false_eq_true, if_false]
        rw [← witsFrom_cons_wit hiw]
        simp [KeyOutput.script, push]
      · simp only [hws, if_false, ne_eq, not_false_eq_true, decide_true, if_true]
        simp [KeyOutput.script, push, witsFrom, hws, padWitness]
    | native k' =>
      rw [ho] at ok
      have hiw : s.out.isWitness = true := by rw [ho]; rfl
      simp only [KeyOutput.lock, check_native ok, Res.bind_ok]
      rw [hrest, Res.bind_ok]
      simp only [keep, hiw, Bool.true_and, Bool.or_true]
      by_cases hws : ws = []
      · simp only [hws, if_true, ne_eq, not_true_eq_false, decide_false, Bool.false_eq_true, if_false]
        rw [← witsFrom_cons_wit hiw]
        simp [KeyOutput.script]
      · simp only [hws, if_false, ne_eq, not_false_eq_true, decide_true, if_true]
        simp [KeyOutput.script, witsFrom, hws, padWitness]

/-- `s` is what the signer makes for the hash `h` with the key of `u`. -/
structure Signs (S : Signer) (u : TxUnlock) (h : Bytes) (s : Spend) : Prop where
  key : u.privateKey.length = 32
  sig : ∃ sig, S.sign u.privateKey h = .ok sig ∧ Btc.serilizeS sig = s.sig
  pub : S.pub u.privateKey = .ok s.pub

theorem calcSigPubs_eq {S : Signer} : ∀ {hs : List Bytes} {us : List TxUnlock} {ss : List Spend}, (∀ h ∈ hs, h.length = 32) →
    hs.length = ss.length → us.length = ss.length →
    (∀ (k : Nat) h u s, hs[k]? = some h → us[k]? = some u → ss[k]? = some s → Signs S u h s) →
    calcSigPubs S hs us = .ok (ss.map fun s => ⟨some s.sig, s.pub⟩)
  | [], [], [], _, _, _, _ => rfl
  | h :: hs, u :: us, s :: ss, hl, h1, h2, hS => by
    obtain ⟨hk, ⟨sig, hs1, hs2⟩, hp⟩ := hS 0 h u s rfl rfl rfl
    rw [calcSigPubs, if_neg (by simp [hk]), if_neg (by simp [hl h]), hs1, Res.bind_ok, hp, Res.bind_ok,
      calcSigPubs_eq (fun x hx => hl x (by simp [hx])) (by simpa using h1) (by simpa using h2) (fun k h u s a b c => hS (k + 1) h u s a b c), Res.bind_ok, hs2]
    rfl
  | [], [], _ :: _, _, h, _, _ => by simp at h
  | [], _ :: _, [], _, _, h, _ => by simp at h
  | [], _ :: _, _ :: _, _, h, _, _ => by simp at h
  | _ :: _, [], [], _, h, _, _ => by simp at h
  | _ :: _, [], _ :: _, _, _, h, _ => by simp at h
  | _ :: _, _ :: _, [], _, h, _, _ => by simp at h

theorem keep_true {ss : List Spend} (h : ss.countP (fun s => s.out.isWitness) = 0) : keep true ss = ss := by
  induction ss with
  | nil => rfl
  | cons s ss ih =>
    rw [List.countP_cons] at h
    have hw : s.out.isWitness = false := by cases hw : s.out.isWitness <;> simp [hw] at h ⊢
    simp only [keep, hw, Bool.false_and, Bool.false_eq_true, if_false, Bool.or_false]
    rw [ih (by omega)]

theorem keep_false {ss : List Spend} (h : ss.countP (fun s => s.out.isWitness) ≤ 1) : keep false ss = ss := by
  induction ss with
  | nil => rfl
  | cons s ss ih =>
    rw [List.countP_cons] at h
    simp only [keep, Bool.and_false, Bool.false_eq_true, if_false, Bool.false_or]
    cases hw : s.out.isWitness with
    | false => rw [ih (by omega)]
    | true => rw [keep_true (by simp [hw] at h ⊢; simpa using h)]

/-- The bytes of the witness stacks. -/
def stacksLength (ss : List Spend) : Nat := (ss.map fun s => (stackBytes (s.out.stack s.der s.pub)).length).sum

theorem stackBytes_pos (st : List Bytes) : 1 ≤ (stackBytes st).length := by
  have : compactSize st.length ≠ [] := by unfold compactSize; split <;> [skip; split <;> [skip; split]] <;> simp
  have := List.length_pos_iff.mpr this
  simp only [stackBytes, List.length_append]
  omega

theorem keep_le {b : Bool} {ss : List Spend} : stacksLength (keep b ss) ≤ stacksLength ss := by
  induction ss generalizing b with
  | nil => simp [keep]
  | cons s ss ih =>
    unfold keep
    split
    · have := ih (b := b)
      simp only [stacksLength, List.map_cons, List.sum_cons] at *
      omega
    · have := ih (b := b || s.out.isWitness)
      simp only [stacksLength, List.map_cons, List.sum_cons] at *
      omega

theorem keep_true_lt {ss : List Spend} (h : 1 ≤ ss.countP (fun s => s.out.isWitness)) : stacksLength (keep true ss) < stacksLength ss := by
  induction ss with
  | nil => simp at h
  | cons s ss ih =>
    have hp := stackBytes_pos (s.out.stack s.der s.pub)
    cases hw : s.out.isWitness with
    | true =>
      have := keep_le (b := true) (ss := ss)
      simp only [keep, hw, Bool.true_and, if_true, stacksLength, List.map_cons, List.sum_cons] at *
      omega
    | false =>
      have := ih (by simpa [List.countP_cons, hw] using h)
      simp only [keep, hw, Bool.false_and, Bool.false_eq_true, if_false, Bool.or_false, stacksLength, List.map_cons, List.sum_cons] at *
      omega

theorem keep_false_lt {ss : List Spend} (h : 2 ≤ ss.countP (fun s => s.out.isWitness)) : stacksLength (keep false ss) < stacksLength ss := by
  induction ss with
  | nil => simp at h
  | cons s ss ih =>
    rw [List.countP_cons] at h
    cases hw : s.out.isWitness with
    | true =>
      have := keep_true_lt (ss := ss) (by simp only [hw, if_true] at h; omega)
      simp only [keep, hw, Bool.and_false, Bool.false_eq_true, if_false, Bool.or_true, stacksLength, List.map_cons, List.sum_cons] at *
      omega
    | false =>
      have := ih (by simp only [hw, Bool.false_eq_true, if_false] at h; omega)
      simp only [keep, hw, Bool.and_false, Bool.false_eq_true, if_false, Bool.or_false, stacksLength, List.map_cons, List.sum_cons] at *
      omega

theorem keep_any {ss : List Spend} : (keep false ss).any (fun s => s.out.isWitness) = ss.any fun s => s.out.isWitness := by
  induction ss with
  | nil => rfl
  | cons s ss ih =>
    simp only [keep, Bool.and_false, Bool.false_eq_true, if_false, Bool.false_or, List.any_cons]
    cases hw : s.out.isWitness with
    | true => simp
    | false => simpa using ih

theorem lowS_eq {sig low : Bytes} (hl : sig.length = 64) (hs : beNat (sig.drop 32) < Btc.curveOrder) (hw : 2 ^ 240 ≤ Btc.curveOrder - beNat (sig.drop 32))
    (h : IsLowS Btc.curveOrder sig low) : Btc.serilizeS sig = low := by
  obtain ⟨h1, h2, h3⟩ := C26_low_s_partial sig hl hs
  have l := h3 hw
  rw [← List.take_append_drop 32 (Btc.serilizeS sig), ← List.take_append_drop 32 low, h1, h.r]
  congr 1
  exact beNat_inj (by simp [l, h.length]) (by rw [h2, h.s])

theorem signEmpty_eq {H : Hashes} {S : Signer} {t : RawTx} (small : Small t) {us : List TxUnlock} {ss : List Spend}
    (hd : List.Forall₂ (fun u s => Describes u s.out s.value) us ss) (hl : t.ins.length = ss.length) (w : ∀ s ∈ ss, Written s)
    (h32 : ∀ b, (H.hash .doubleSha256 b).length = 32)
    (hS : ∀ (k : Nat) i u s, t.ins[k]? = some i → us[k]? = some u → ss[k]? = some s →
      Signs S u (H.hash .doubleSha256 (s.out.preimage (H.hash .doubleSha256) t k i s.value)) s) :
    signEmpty H S (Hex.encode t.ser) us = (do
      let b ← encodeTx H (ofRaw (t.withScripts (ss.map fun s => s.out.script s.der s.pub)) (witsFrom 0 [] (keep false ss)))
      .ok (Hex.encode b)) := by
  have hlen := hashesFrom_length (H := H) (t := t) (k := 0) hl
  have hlu := hd.length_eq
  unfold signEmpty
  rw [Hex.decode_encode, Res.bind_ok, decodeTx_ser small, Res.bind_ok, getHashes_eq small hd hl, Res.bind_ok,
    List.map_fst_zip (by simp [hlen, hlu]), calcSigPubs_eq (ss := ss) ?_ hlen hlu ?_, Res.bind_ok,
    show (ofRaw t []).witness = [] from rfl, signLoop_eq hd w, Res.bind_ok]
  · simp only
    rw [setScripts_ofRaw]
    rfl
  · intro h hh
    obtain ⟨k, hk, rfl⟩ := List.getElem_of_mem hh
    have hi : k < t.ins.length := by omega
    have hs : k < ss.length := by omega
    have := hashesFrom_get (H := H) (t := t) (k := 0) (List.getElem?_eq_getElem hi) (List.getElem?_eq_getElem hs)
    rw [List.getElem?_eq_getElem hk] at this
    rw [Option.some.inj this]
    exact h32 _
  · intro k h u s h1 h2 h3
    have hs : k < ss.length := (List.getElem?_eq_some_iff.mp h3).1
    have hi : k < t.ins.length := by omega
    have := hashesFrom_get (H := H) (t := t) (k := 0) (List.getElem?_eq_getElem hi) h3
    rw [h1, Nat.zero_add] at this
    rw [Option.some.inj this]
    exact hS k _ u s (List.getElem?_eq_getElem hi) h2 h3

end BtcLike

/-- C116 (signing): a transaction with at most one input of a witness kind is returned spent with the signatures the signer makes for the hashes of the
inputs, with s in the lower half. Missing: more inputs of a witness kind (`C116_sign_violated`), and signatures that are too short after lowering s (C26) or
have leading zeros in a witness. -/
theorem C116_sign_partial (H : Hashes) (S : Signer) (t : RawTx) (small : Small t) (us : List TxUnlock) (ss : List Spend)
    (hd : List.Forall₂ (fun u s => Describes u s.out s.value) us ss) (hl : t.ins.length = ss.length) (good : ∀ s ∈ ss, s.Good)
    (h1 : ss.length = 1 → ∀ s ∈ ss, (s.out.script s.der s.pub).getLast? ≠ some 0xae)
    (hS : ∀ (k : Nat) (i : RawIn) (u : TxUnlock) (s : Spend), t.ins[k]? = some i → us[k]? = some u → ss[k]? = some s →
      u.privateKey.length = 32 ∧ S.pub u.privateKey = .ok s.pub ∧
      ∃ sig, S.sign u.privateKey (H.hash .doubleSha256 (s.out.preimage (H.hash .doubleSha256) t k i s.value)) = .ok sig ∧
        sig.length = 64 ∧ beNat (sig.drop 32) < Btc.curveOrder ∧ 2 ^ 240 ≤ Btc.curveOrder - beNat (sig.drop 32) ∧ IsLowS Btc.curveOrder sig s.sig)
    (one : ss.countP (fun s => s.out.isWitness) ≤ 1) :
    signEmpty H S (Hex.encode t.ser) us = .ok (Hex.encode (t.spend ss)) := by
  have w : ∀ s ∈ ss, Written s := fun s hs => (good s hs).written
  rw [signEmpty_eq small hd hl w (H.size .doubleSha256) ?_, keep_false one, encode_signed small hd hl w h1, Res.bind_ok]
  intro k i u s a b c
  obtain ⟨x, y, sig, z1, z2, z3, z4, z5⟩ := hS k i u s a b c
  exact ⟨x, ⟨sig, z1, lowS_eq z2 z3 z4 z5⟩, y⟩

/-- C116 is false for signing two or more inputs of a witness kind: only the first witness is stored, and what is returned without an error is not the
spent transaction. -/
theorem C116_sign_violated (H : Hashes) (S : Signer) (t : RawTx) (small : Small t) (us : List TxUnlock) (ss : List Spend)
    (hd : List.Forall₂ (fun u s => Describes u s.out s.value) us ss) (hl : t.ins.length = ss.length) (good : ∀ s ∈ ss, s.Good)
    (hS : ∀ (k : Nat) (i : RawIn) (u : TxUnlock) (s : Spend), t.ins[k]? = some i → us[k]? = some u → ss[k]? = some s →
      u.privateKey.length = 32 ∧ S.pub u.privateKey = .ok s.pub ∧
      ∃ sig, S.sign u.privateKey (H.hash .doubleSha256 (s.out.preimage (H.hash .doubleSha256) t k i s.value)) = .ok sig ∧
        sig.length = 64 ∧ beNat (sig.drop 32) < Btc.curveOrder ∧ 2 ^ 240 ≤ Btc.curveOrder - beNat (sig.drop 32) ∧ IsLowS Btc.curveOrder sig s.sig)
    (two : 2 ≤ ss.countP (fun s => s.out.isWitness)) :
    ∃ text, signEmpty H S (Hex.encode t.ser) us = .ok text ∧ text ≠ Hex.encode (t.spend ss) := by
  have w : ∀ s ∈ ss, Written s := fun s hs => (good s hs).written
  have hcl := List.countP_le_length (p := fun s : Spend => s.out.isWitness) (l := ss)
  have hany : ss.any (fun s => s.out.isWitness) = true := by
    rw [List.any_eq_true]
    have := List.countP_pos_iff.mp (show 0 < ss.countP (fun s => s.out.isWitness) by omega)
    simpa using this
  have hsm := small_withScripts small (scripts := ss.map fun s => s.out.script s.der s.pub) (by simpa using hl) (scripts_lt hd w)
  have hpl := plain_withScripts (t := t) (ss := ss) hl (by omega)
  have hne : keep false ss ≠ [] := by
    intro h
    have := keep_any (ss := ss)
    rw [h, hany] at this
    simp at this
  have hw : witsFrom 0 [] (keep false ss) = (keep false ss).map witOf := by
    simp only [witsFrom, true_and, keep_any, hany, Bool.true_eq_false, if_false, padWitness, if_true, List.replicate_zero, List.nil_append]
  have he := encodeTx_serWitness (H := H) hsm hpl (ws := (keep false ss).map witOf) (sts := (keep false ss).map fun s => s.out.stack s.der s.pub)
    (by simpa using hne) (by
      rw [List.forall₂_map_left_iff, List.forall₂_map_right_iff]
      exact List.forall₂_same.mpr fun s hs => encodeWitness_witOf (w s (keep_sub s hs)))
  have hr : signEmpty H S (Hex.encode t.ser) us = .ok (Hex.encode ((t.withScripts (ss.map fun s => s.out.script s.der s.pub)).serWitness
      ((keep false ss).map fun s => s.out.stack s.der s.pub))) := by
    rw [signEmpty_eq small hd hl w (H.size .doubleSha256) ?_, hw, he, Res.bind_ok]
    intro k i u s a b c
    obtain ⟨x, y, sig, z1, z2, z3, z4, z5⟩ := hS k i u s a b c
    exact ⟨x, ⟨sig, z1, lowS_eq z2 z3 z4 z5⟩, y⟩
  refine ⟨_, hr, fun e => ?_⟩
  have hlt := keep_false_lt two
  have e := congrArg List.length (Hex.encode_inj e)
  unfold RawTx.spend at e
  simp only [hany, if_true] at e
  simp only [RawTx.serWitness, List.length_append, List.length_flatten, List.map_map, Function.comp_def] at e
  simp only [stacksLength] at hlt
  omega

/-- Signing hashes: for as many 32-byte hashes as unlock data with 32-byte keys, each hash is signed with the key beside it, r stays and s is lowered,
and the public key of this key is returned with it. -/
theorem C116_sign_hashes (S : Signer) (hashes : List Bytes) (us : List TxUnlock) (low : List (Bytes × Bytes)) (h32 : ∀ h ∈ hashes, h.length = 32)
    (l1 : hashes.length = us.length) (l2 : us.length = low.length)
    (hS : ∀ (k : Nat) (h : Bytes) (u : TxUnlock) (l : Bytes × Bytes), hashes[k]? = some h → us[k]? = some u → low[k]? = some l →
      u.privateKey.length = 32 ∧ S.pub u.privateKey = .ok l.2 ∧ ∃ sig, S.sign u.privateKey h = .ok sig ∧
        sig.length = 64 ∧ beNat (sig.drop 32) < Btc.curveOrder ∧ 2 ^ 240 ≤ Btc.curveOrder - beNat (sig.drop 32) ∧ IsLowS Btc.curveOrder sig l.1) :
    signHashes S (hashes.map Hex.encode) us = .ok (low.map fun l => ⟨some l.1, l.2⟩) := by
  have hdec : ∀ l : List Bytes, decodeAll (l.map Hex.encode) = .ok l := by
    intro l
    induction l with
    | nil => rfl
    | cons a l ih => rw [List.map_cons, decodeAll, Hex.decode_encode, Res.bind_ok, ih, Res.bind_ok]
  unfold signHashes
  rw [hdec, Res.bind_ok, if_neg (by simpa using l1),
    calcSigPubs_eq (ss := low.map fun l => ⟨.native [], 0, l.1, l.2, []⟩) h32 (by simp; omega) (by simpa using l2) ?_]
  · simp
  · intro k h u s a b c
    rw [List.getElem?_map, Option.map_eq_some_iff] at c
    obtain ⟨l, c, rfl⟩ := c
    obtain ⟨x, y, sig, z1, z2, z3, z4, z5⟩ := hS k h u l a b c
    exact ⟨x, ⟨sig, z1, lowS_eq z2 z3 z4 z5⟩, y⟩

/-- Any other number of hashes than of unlock data is an error. -/
theorem C116_sign_hashes_count (S : Signer) (hashes : List Bytes) (us : List TxUnlock) (h : hashes.length ≠ us.length) :
    signHashes S (hashes.map Hex.encode) us = .err := by
  have hdec : ∀ l : List Bytes, decodeAll (l.map Hex.encode) = .ok l := by
    intro l
    induction l with
    | nil => rfl
    | cons a l ih => rw [List.map_cons, decodeAll, Hex.decode_encode, Res.bind_ok, ih, Res.bind_ok]
  unfold signHashes
  rw [hdec, Res.bind_ok, if_pos (by simpa using h)]

/-- Hashes are signed only if all texts are hex of 32 bytes, all keys have 32 bytes and there are as many of one as of the other; the result has one entry
for each. -/
theorem C116_sign_hashes_sound (S : Signer) (texts : List Bytes) (us : List TxUnlock) (sps : List SigPub) (h : signHashes S texts us = .ok sps) :
    List.Forall₂ (fun t u => ∃ b, Hex.decode t = .ok b ∧ b.length = 32 ∧ u.privateKey.length = 32) texts us ∧ sps.length = us.length := by
  unfold signHashes at h
  obtain ⟨hs, hd, h⟩ := Res.bind_eq_ok.mp h
  split at h
  · cases h
  clear * - hd h
  induction texts generalizing hs us sps with
  | nil =>
    unfold decodeAll at hd
    cases hd
    cases us with
    | nil => unfold calcSigPubs at h; cases h; exact ⟨.nil, rfl⟩
    | cons u us => simp [calcSigPubs] at h
  | cons t ts ih =>
    unfold decodeAll at hd
    obtain ⟨b, hb, hd⟩ := Res.bind_eq_ok.mp hd
    obtain ⟨bs, hbs, hd⟩ := Res.bind_eq_ok.mp hd
    cases hd
    cases us with
    | nil => simp [calcSigPubs] at h
    | cons u us =>
      unfold calcSigPubs at h
      split at h
      · cases h
      split at h
      · cases h
      rename_i h1 h2
      obtain ⟨sig, _, h⟩ := Res.bind_eq_ok.mp h
      obtain ⟨pub, _, h⟩ := Res.bind_eq_ok.mp h
      obtain ⟨r, hr, h⟩ := Res.bind_eq_ok.mp h
      cases h
      obtain ⟨i1, i2⟩ := ih us r bs hbs hr
      exact ⟨.cons ⟨b, hb, not_not.mp h2, not_not.mp h1⟩ i1, by simp [i2]⟩

namespace BtcLike

/-- A signer that always answers with the same signature and key. -/
def demoSigner : Signer := ⟨fun _ _ => .ok demoSig, fun _ => .ok demoPub⟩

theorem demo_low : IsLowS Btc.curveOrder demoSig demoSig := ⟨rfl, rfl, by decide +kernel⟩

end BtcLike

example : signEmpty toyHashes demoSigner (Hex.encode Btc.demoTx.ser) [uNative] = .ok (Hex.encode (Btc.demoTx.spend [demoNative])) := by
  refine C116_sign_partial _ _ _ demo1_small _ _ (.cons fresh_native.desc .nil) rfl (by simpa using demo_good rfl rfl rfl)
    (by simp [demoNative, KeyOutput.script]) ?_ (by decide)
  intro k i u s h1 h2 h3
  obtain rfl : k = 0 := by
    have := (List.getElem?_eq_some_iff.mp h3).1
    simpa using this
  simp only [List.getElem?_cons_zero, Option.some.injEq] at h2 h3
  subst h2 h3
  exact ⟨rfl, rfl, demoSig, rfl, rfl, by decide +kernel, by decide +kernel, demo_low⟩

example : ∃ text, signEmpty toyHashes demoSigner (Hex.encode demo3.ser) [uKey, uNested, uNative] = .ok text ∧
    text ≠ Hex.encode (demo3.spend [demoKey, demoNested, demoNative]) := by
  refine C116_sign_violated _ _ _ demo3_small _ _ (.cons fresh_key.desc (.cons fresh_nested.desc (.cons fresh_native.desc .nil))) rfl
    ?_ ?_ (by decide)
  · intro s hs
    simp only [List.mem_cons, List.not_mem_nil, or_false] at hs
    rcases hs with rfl | rfl | rfl <;> exact demo_good rfl rfl rfl
  · intro k i u s h1 h2 h3
    have hs : s ∈ [demoKey, demoNested, demoNative] := List.mem_of_getElem? h3
    have hu : u ∈ [uKey, uNested, uNative] := List.mem_of_getElem? h2
    have a : u.privateKey.length = 32 := by
      simp only [List.mem_cons, List.not_mem_nil, or_false] at hu
      rcases hu with rfl | rfl | rfl <;> rfl
    have b : s.sig = demoSig ∧ s.pub = demoPub := by
      simp only [List.mem_cons, List.not_mem_nil, or_false] at hs
      rcases hs with rfl | rfl | rfl <;> exact ⟨rfl, rfl⟩
    rw [b.1, b.2]
    exact ⟨a, rfl, demoSig, rfl, rfl, by decide +kernel, by decide +kernel, demo_low⟩

example : signHashes demoSigner ([List.replicate 32 7].map Hex.encode) [uKey] = .ok [⟨some demoSig, demoPub⟩] := by
  refine C116_sign_hashes demoSigner _ _ [(demoSig, demoPub)] (by simp) rfl rfl ?_
  intro k h u l h1 h2 h3
  obtain rfl : k = 0 := by
    have := (List.getElem?_eq_some_iff.mp h3).1
    simpa using this
  simp only [List.getElem?_cons_zero, Option.some.injEq] at h2 h3
  subst h2 h3
  exact ⟨rfl, rfl, demoSig, rfl, rfl, by decide +kernel, by decide +kernel, demo_low⟩

end Verif
