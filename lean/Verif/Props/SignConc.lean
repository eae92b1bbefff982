import Verif.Lemmas.SignConc
import Verif.Props.SignatureSet
import Mathlib.Tactic.LinearCombination

/-! Property C130: signatures made by concurrent signers are those of a single signer. -/

namespace Verif
open SigSet SignConc Spec.SignConc Spec.Rfc6979

/-! ### A small library to test hypotheses with -/

/-- The nonce is the last byte of the hash; signing works for the nonces 1 and 2, where inverses modulo the order are plain to see, with r = nonce. -/
def smallEc : Ec where
  hmac k d := if d.length = 97 then List.replicate 31 0 ++ [d.getD 96 0] else fit 32 k
  hmac_size k d := by split_ifs <;> simp [fit]
  preprocess _ := true
  sign key hash nonce :=
    if beNat nonce = 1 then some (beBytes 32 1 ++ beBytes 32 ((beNat hash + beNat key) % q))
    else if beNat nonce = 2 then some (beBytes 32 2 ++ beBytes 32 ((beNat hash + 2 * beNat key) * ((q + 1) / 2) % q))
    else none
  sign_size p h k s hs := by
    split_ifs at hs <;> cases hs <;> simp
  pub nonce := some (List.replicate 63 0 ++ [nonce.getLastD 0])
  pub_size k p h := by cases h; simp
  recover _ _ := none
  signOn _ _ _ := none

theorem smallEc_ecdsa : Ecdsa smallEc where
  equation key hash nonce raw h := by
    have hq : q < 256 ^ 32 := by decide +kernel
    have hlt : ∀ v, v % q < 256 ^ 32 := fun v => lt_trans (Nat.mod_lt _ (by decide +kernel)) hq
    simp only [smallEc] at h
    split_ifs at h with h1 h2
    · cases h
      rw [List.drop_left' (by simp), List.take_left' (by simp), beNat_beBytes_of_lt (hlt _), beNat_beBytes_of_lt (by decide), h1, ZMod.natCast_mod]
      push_cast; ring
    · cases h
      rw [List.drop_left' (by simp), List.take_left' (by simp), beNat_beBytes_of_lt (hlt _), beNat_beBytes_of_lt (by decide), h2, ZMod.natCast_mod]
      have e : ((2 : Nat) : ZMod q) * (((q + 1) / 2 : Nat) : ZMod q) = 1 := by
        rw [← Nat.cast_mul, show 2 * ((q + 1) / 2) = q + 1 by decide +kernel]
        simp
      push_cast at e ⊢
      linear_combination ((beNat hash : ZMod q) + 2 * beNat key) * e
  same_r key hash key' hash' nonce raw raw' h h' := by
    simp only [smallEc] at h h'
    split_ifs at h h' with h1 h2
    · cases h; cases h'; rw [List.take_left' (by simp), List.take_left' (by simp)]
    · cases h; cases h'; rw [List.take_left' (by simp), List.take_left' (by simp)]

/-! ### Alone and with exclusion -/

/-- C130, one signer: a call that runs alone ends, and its result does not depend on what the variable of the library held before. -/
theorem C130_alone (E : Ec) (sha : Bytes → Bytes) (q : Request) (cell : Bytes) :
    ∃ n cell', run E ⟨cell, [call E sha q]⟩ (List.replicate n 0) = ⟨cell', [.done (alone E sha q)]⟩ :=
  alone_ends (call_settles sha q) cell

/-- C130, restricted to callers that exclude each other between storing a nonce and signing: any number of calls, interleaved in any such way, each return
what they return alone. Missing: other schedules, see `C130_nonce_violated`. -/
theorem C130_exclusive_partial (E : Ec) (sha : Bytes → Bytes) (requests : List Request) (cell : Bytes) (schedule : List Nat)
    (hx : Exclusive E ⟨cell, requests.map (call E sha)⟩ schedule) (i : Nat) (q : Request) (r : Res Bytes) (hq : requests[i]? = some q)
    (hr : (run E ⟨cell, requests.map (call E sha)⟩ schedule).calls[i]? = some (.done r)) : r = alone E sha q := by
  obtain ⟨_, h⟩ := run_inv (E := E) (requests.map (alone E sha)) schedule ⟨cell, requests.map (call E sha)⟩ (by simp) (by
    intro j c r hc hr
    rw [List.getElem?_map] at hr
    simp only [List.getElem?_map] at hc
    cases hj : requests[j]? with
    | none => rw [hj] at hr; cases hr
    | some q =>
      rw [hj] at hr hc
      obtain rfl := Option.some.inj hr
      obtain rfl := Option.some.inj hc
      exact .inl (call_settles sha q)) hx
  exact settles_done _ (h i _ (alone E sha q) hr (by rw [List.getElem?_map, hq]; rfl))

/-- Such schedules exist for every list of requests, and let every call return: one call after the other. -/
theorem C130_serial (E : Ec) (sha : Bytes → Bytes) (requests : List Request) (cell : Bytes) :
    ∃ schedule, Exclusive E ⟨cell, requests.map (call E sha)⟩ schedule ∧
      (run E ⟨cell, requests.map (call E sha)⟩ schedule).calls = requests.map fun q => .done (alone E sha q) :=
  serial_ends sha requests [] cell

/-! ### Without exclusion -/

/-- Two requests for recoverable signatures: keys and hashes of 32 bytes, keys and first nonces in range, nonces accepted, and the three signatures that the
library may be asked for exist (the last hypothesis but one is the signature of the first request with the nonce of the second). -/
structure TwoSigners (E : Ec) (key1 hash1 key2 hash2 raw0 raw1 raw2 y1 y2 : Bytes) : Prop where
  key1_length : key1.length = 32
  hash1_length : hash1.length = 32
  key2_length : key2.length = 32
  hash2_length : hash2.length = 32
  key1_range : InRange (beNat key1)
  key2_range : InRange (beNat key2)
  nonce1_range : InRange (beNat (candidate E.hmac (key1 ++ hash1) 0))
  nonce2_range : InRange (beNat (candidate E.hmac (key2 ++ hash2) 0))
  accepted1 : E.preprocess (candidate E.hmac (key1 ++ hash1) 0) = true
  accepted2 : E.preprocess (candidate E.hmac (key2 ++ hash2) 0) = true
  sign0 : E.sign key1 hash1 (candidate E.hmac (key1 ++ hash1) 0) = some raw0
  sign1 : E.sign key1 hash1 (candidate E.hmac (key2 ++ hash2) 0) = some raw1
  sign2 : E.sign key2 hash2 (candidate E.hmac (key2 ++ hash2) 0) = some raw2
  point1 : E.pub (candidate E.hmac (key1 ++ hash1) 0) = some y1
  point2 : E.pub (candidate E.hmac (key2 ++ hash2) 0) = some y2

theorem smallEc_two : TwoSigners smallEc (beBytes 32 5) (beBytes 32 1) (beBytes 32 7) (beBytes 32 2)
    (beBytes 32 1 ++ beBytes 32 6) (beBytes 32 2 ++ beBytes 32 ((q + 11) / 2)) (beBytes 32 2 ++ beBytes 32 8)
    (List.replicate 63 0 ++ [1]) (List.replicate 63 0 ++ [2]) := by
  constructor <;> first | rfl | decide +kernel | (unfold InRange; decide +kernel)

/-- Both calls stored their nonces before either signed. -/
theorem interleaved (E : Ec) {key1 hash1 key2 hash2 raw0 raw1 raw2 y1 y2 : Bytes}
    (h : TwoSigners E key1 hash1 key2 hash2 raw0 raw1 raw2 y1 y2) (cell : Bytes) : ∃ sig1 sig2,
    run E ⟨cell, [ethCall E key1 hash1, ethCall E key2 hash2]⟩ [0, 1, 0, 1] =
      ⟨candidate E.hmac (key2 ++ hash2) 0, [.done (.ok sig1), .done (.ok sig2)]⟩ ∧
    finish E (candidate E.hmac (key1 ++ hash1) 0) (some raw1) = some sig1 ∧
    finish E (candidate E.hmac (key2 ++ hash2) 0) (some raw2) = some sig2 := by
  have e1 := finish_some (E := E) _ _ raw1 h.point1
  have e2 := finish_some (E := E) _ _ raw2 h.point2
  refine ⟨_, _, ?_, e1, e2⟩
  rw [ethCall_first h.key1_length h.hash1_length h.key1_range h.nonce1_range,
    ethCall_first h.key2_length h.hash2_length h.key2_range h.nonce2_range]
  simp only [run, List.foldl_cons, List.foldl_nil, step, List.getElem?_cons_zero, List.getElem?_cons_succ, next, h.accepted1, h.accepted2,
    if_true, List.set_cons_zero, List.set_cons_succ, h.sign1, h.sign2]
  rw [e1, e2]

/-- C130 is violated: when two calls store their nonces before either signs, both return successfully and both signatures are made with the nonce of the
second request. The first caller's signature is not the one it gets alone, whenever the two nonces have different r. -/
theorem C130_nonce_violated (E : Ec) (key1 hash1 key2 hash2 raw0 raw1 raw2 y1 y2 : Bytes)
    (h : TwoSigners E key1 hash1 key2 hash2 raw0 raw1 raw2 y1 y2) (cell : Bytes) : ∃ sig1 sig2 cell',
    run E ⟨cell, [ethCall E key1 hash1, ethCall E key2 hash2]⟩ [0, 1, 0, 1] = ⟨cell', [.done (.ok sig1), .done (.ok sig2)]⟩ ∧
    sig1.take 32 = raw1.take 32 ∧ sig2.take 32 = raw2.take 32 ∧
    (raw0.take 32 ≠ raw1.take 32 → ethSignature E key1 hash1 ≠ .ok sig1) := by
  have l0 := E.sign_size _ _ _ _ h.sign0
  have l1 := E.sign_size _ _ _ _ h.sign1
  have l2 := E.sign_size _ _ _ _ h.sign2
  have tk : ∀ n raw sig, raw.length = 64 → (∃ y, E.pub n = some y) → finish E n (some raw) = some sig → sig.take 32 = raw.take 32 := by
    rintro n raw sig hl ⟨y, hy⟩ hf
    rw [finish_some n y raw hy] at hf
    obtain rfl := Option.some.inj hf
    split
    · rw [List.append_assoc, List.take_left' (by simp; omega)]
    · rw [List.take_append_of_le_length (by omega)]
  obtain ⟨sig1, sig2, hr, f1, f2⟩ := interleaved E h cell
  have t1 := tk _ _ _ l1 ⟨_, h.point1⟩ f1
  refine ⟨sig1, sig2, _, hr, t1, tk _ _ _ l2 ⟨_, h.point2⟩ f2, ?_⟩
  intro hne heq
  have f0 := finish_some (E := E) _ _ raw0 h.point1
  have inner := inner_finish (E := E) key1 hash1 (candidate E.hmac (key1 ++ hash1) 0)
  rw [h.accepted1, if_neg (by simp), h.sign0, f0] at inner
  have ha := C48_first_round E key1 hash1 _ h.key1_length h.hash1_length h.key1_range h.nonce1_range inner
  rw [ha] at heq
  have t0 := tk _ _ _ l0 ⟨_, h.point1⟩ f0
  rw [Res.ok.inj heq] at t0
  exact hne (t0.symm.trans t1)

example : ((beBytes 32 1 ++ beBytes 32 6).take 32 : Bytes) ≠ (beBytes 32 2 ++ beBytes 32 ((q + 11) / 2)).take 32 := by decide +kernel

/-- The two published signatures have the same r and give away a secret: a linear equation between the two private keys whose coefficients are published (s
up to its sign). If the library makes ECDSA signatures and no s is within 2^240 of the order (see `C48_low_s_violated`), then
`b (h1 + r d1) = a (h2 + r d2)`, where `a` and `b` are the published values s up to sign. Each signer learns the key of the other. -/
theorem C130_key_leak_violated (E : Ec) (law : Ecdsa E) (key1 hash1 key2 hash2 raw0 raw1 raw2 y1 y2 : Bytes)
    (h : TwoSigners E key1 hash1 key2 hash2 raw0 raw1 raw2 y1 y2)
    (s1 : beNat (raw1.drop 32) < q) (w1 : beNat (raw1.drop 32) ≤ q / 2 ∨ 2 ^ 240 ≤ q - beNat (raw1.drop 32))
    (s2 : beNat (raw2.drop 32) < q) (w2 : beNat (raw2.drop 32) ≤ q / 2 ∨ 2 ^ 240 ≤ q - beNat (raw2.drop 32)) (cell : Bytes) :
    ∃ sig1 sig2 cell' a b, run E ⟨cell, [ethCall E key1 hash1, ethCall E key2 hash2]⟩ [0, 1, 0, 1] = ⟨cell', [.done (.ok sig1), .done (.ok sig2)]⟩ ∧
      rOf sig1 = rOf sig2 ∧ (a = sOf sig1 ∨ a = - sOf sig1) ∧ (b = sOf sig2 ∨ b = - sOf sig2) ∧
      b * ((beNat hash1 : ZMod q) + rOf sig1 * beNat key1) = a * ((beNat hash2 : ZMod q) + rOf sig1 * beNat key2) := by
  obtain ⟨sig1, sig2, hr, f1, f2⟩ := interleaved E h cell
  obtain ⟨t1, p1⟩ := finish_s _ _ _ _ h.point1 (E.sign_size _ _ _ _ h.sign1) f1 s1 w1
  obtain ⟨t2, p2⟩ := finish_s _ _ _ _ h.point2 (E.sign_size _ _ _ _ h.sign2) f2 s2 w2
  have e1 := law.equation _ _ _ _ h.sign1
  have e2 := law.equation _ _ _ _ h.sign2
  have er := law.same_r _ _ _ _ _ _ _ h.sign1 h.sign2
  refine ⟨sig1, sig2, _, _, _, hr, ?_, p1, p2, ?_⟩
  · unfold rOf; rw [t1, t2, er]
  · unfold rOf
    rw [t1]
    rw [← er] at e2
    linear_combination (- (beNat (raw2.drop 32) : ZMod q)) * e1 + (beNat (raw1.drop 32) : ZMod q) * e2

/-- The same key in both requests: the key is the solution of a linear equation with published coefficients. -/
theorem C130_own_key_violated (E : Ec) (law : Ecdsa E) (key hash1 hash2 raw0 raw1 raw2 y1 y2 : Bytes)
    (h : TwoSigners E key hash1 key hash2 raw0 raw1 raw2 y1 y2)
    (s1 : beNat (raw1.drop 32) < q) (w1 : beNat (raw1.drop 32) ≤ q / 2 ∨ 2 ^ 240 ≤ q - beNat (raw1.drop 32))
    (s2 : beNat (raw2.drop 32) < q) (w2 : beNat (raw2.drop 32) ≤ q / 2 ∨ 2 ^ 240 ≤ q - beNat (raw2.drop 32)) (cell : Bytes) :
    ∃ sig1 sig2 cell' a b, run E ⟨cell, [ethCall E key hash1, ethCall E key hash2]⟩ [0, 1, 0, 1] = ⟨cell', [.done (.ok sig1), .done (.ok sig2)]⟩ ∧
      (a = sOf sig1 ∨ a = - sOf sig1) ∧ (b = sOf sig2 ∨ b = - sOf sig2) ∧
      (beNat key : ZMod q) * (rOf sig1 * (b - a)) = a * beNat hash2 - b * beNat hash1 := by
  obtain ⟨sig1, sig2, cell', a, b, hr, _, ha, hb, e⟩ := C130_key_leak_violated E law key hash1 key hash2 raw0 raw1 raw2 y1 y2 h s1 w1 s2 w2 cell
  exact ⟨sig1, sig2, cell', a, b, hr, ha, hb, by linear_combination e⟩

/-- The hypotheses are met by two signers with different keys. -/
example : Ecdsa smallEc ∧ TwoSigners smallEc (beBytes 32 5) (beBytes 32 1) (beBytes 32 7) (beBytes 32 2)
    (beBytes 32 1 ++ beBytes 32 6) (beBytes 32 2 ++ beBytes 32 ((q + 11) / 2)) (beBytes 32 2 ++ beBytes 32 8)
    (List.replicate 63 0 ++ [1]) (List.replicate 63 0 ++ [2]) ∧
    beNat ((beBytes 32 2 ++ beBytes 32 ((q + 11) / 2)).drop 32) < q ∧ 2 ^ 240 ≤ q - beNat ((beBytes 32 2 ++ beBytes 32 ((q + 11) / 2)).drop 32) ∧
    beNat ((beBytes 32 2 ++ beBytes 32 8).drop 32) ≤ q / 2 :=
  ⟨smallEc_ecdsa, smallEc_two, by decide +kernel, by decide +kernel, by decide +kernel⟩

/-- And with the same key. -/
example : TwoSigners smallEc (beBytes 32 5) (beBytes 32 1) (beBytes 32 5) (beBytes 32 2)
    (beBytes 32 1 ++ beBytes 32 6) (beBytes 32 2 ++ beBytes 32 ((q + 11) / 2)) (beBytes 32 2 ++ beBytes 32 6)
    (List.replicate 63 0 ++ [1]) (List.replicate 63 0 ++ [2]) := by
  constructor <;> first | rfl | decide +kernel | (unfold InRange; decide +kernel)

/-- The recovery byte of the first signature belongs to another nonce: the signature agrees with the proper one for the nonce in use on r and s, and on the
last byte exactly when the two nonce points have the same parity. -/
theorem C130_recovery_violated (E : Ec) (key1 hash1 key2 hash2 raw0 raw1 raw2 y1 y2 : Bytes)
    (h : TwoSigners E key1 hash1 key2 hash2 raw0 raw1 raw2 y1 y2) (cell : Bytes) : ∃ sig1 sig2 good cell',
    run E ⟨cell, [ethCall E key1 hash1, ethCall E key2 hash2]⟩ [0, 1, 0, 1] = ⟨cell', [.done (.ok sig1), .done (.ok sig2)]⟩ ∧
    signatureInner E key1 hash1 (candidate E.hmac (key2 ++ hash2) 0) = some good ∧
    sig1.take 64 = good.take 64 ∧ (sig1 = good ↔ parity y1 = parity y2) := by
  have l1 := E.sign_size _ _ _ _ h.sign1
  obtain ⟨sig1, sig2, hr, f1, f2⟩ := interleaved E h cell
  have inner := inner_finish (E := E) key1 hash1 (candidate E.hmac (key2 ++ hash2) 0)
  rw [h.accepted2, if_neg (by simp), h.sign1, finish_some _ _ raw1 h.point2] at inner
  rw [finish_some _ _ raw1 h.point1] at f1
  obtain rfl := Option.some.inj f1
  refine ⟨_, sig2, _, _, hr, inner, ?_⟩
  have hb : ∀ a b, a < 2 → b < 2 → (UInt8.ofNat a = UInt8.ofNat b ↔ a = b) := by
    intro a b ha hb
    interval_cases a <;> interval_cases b <;> decide
  have m1 : (y1.getD 63 0).toNat % 2 < 2 := Nat.mod_lt _ (by omega)
  have m2 : (y2.getD 63 0).toNat % 2 < 2 := Nat.mod_lt _ (by omega)
  unfold parity
  split
  · have hl : (raw1.take 32 ++ copyInto (raw1.drop 32) (OwKeychain.padLoop 32 0
        (OwKeychain.bigBytes ((Btc.curveOrder : Int) - beNat (raw1.drop 32)).natAbs))).length = 64 := by
      unfold copyInto; simp; omega
    refine ⟨by rw [List.take_left' hl, List.take_left' hl], ?_⟩
    rw [List.append_cancel_left_eq, List.cons.injEq, hb _ _ (by omega) (by omega)]
    constructor
    · rintro ⟨e, _⟩; omega
    · intro e; exact ⟨by omega, rfl⟩
  · refine ⟨by rw [List.take_left' l1, List.take_left' l1], ?_⟩
    rw [List.append_cancel_left_eq, List.cons.injEq, hb _ _ m1 m2]
    exact ⟨fun e => e.1, fun e => ⟨e, rfl⟩⟩

example : parity (List.replicate 63 0 ++ [1]) ≠ parity (List.replicate 63 0 ++ [2]) := by decide

end Verif
