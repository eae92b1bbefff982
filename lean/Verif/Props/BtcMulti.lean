import Verif.Lemmas.BtcTx

/-! Properties C27 and C28: multisig redeem scripts and their verification (package btcTransaction). -/

namespace Verif
open Verif.Spec Verif.Btc

namespace Btc

/-- Reading keys written as 33-byte pushes, up to a byte that starts no such push. -/
theorem readKeys_ok (y : UInt8) (rest : Bytes) (hy : y ≠ 0x21) : ∀ (keys : List Bytes) (f : Nat), keys.length < f →
    (∀ k ∈ keys, k.length = 33) →
    readKeys f ((keys.map push).flatten ++ y :: rest) = .ok (keys, y :: rest)
  | [], 0, h, _ => by simp at h
  | [], f + 1, _, _ => by simp [readKeys, hy]
  | k :: ks, 0, h, _ => by simp at h
  | k :: ks, f + 1, h, hk => by
    have h33 := hk k (by simp)
    have ih := readKeys_ok y rest hy ks f (by simpa using h) (fun x hx => hk x (by simp [hx]))
    have e : ((k :: ks).map push).flatten ++ y :: rest = 0x21 :: (k ++ ((ks.map push).flatten ++ y :: rest)) := by
      simp [push, h33]
    rw [e, readKeys]
    rw [if_neg (by simp), if_neg (by simp [h33]), List.take_left' h33, List.drop_left' h33, ih]

theorem multiRedeem_eq (m : UInt8) (keys : List Bytes) (hm1 : 1 ≤ m.toNat) (hm2 : m.toNat ≤ keys.length)
    (hn : keys.length ≤ 16) (hk : ∀ k ∈ keys, k.length = 33 ∨ k.length = 65) :
    multiRedeem m keys = if (multisigScript m.toNat keys).length > 520 then .err
      else .ok (multisigScript m.toNat keys) := by
  have e1 : ((0x51 : UInt8) + m - 1) = UInt8.ofNat (0x50 + m.toNat) := by
    apply UInt8.toNat_inj.mp
    have := m.toNat_lt
    simp [UInt8.toNat_sub, UInt8.toNat_add]
    omega
  have e2 : ((0x51 : UInt8) + UInt8.ofNat keys.length - 1) = UInt8.ofNat (0x50 + keys.length) := by
    apply UInt8.toNat_inj.mp
    simp [UInt8.toNat_sub, UInt8.toNat_add]
    omega
  have e3 : multisigScript m.toNat keys = (0x51 + m - 1) :: (keys.map (fun k => UInt8.ofNat k.length :: k)).flatten ++
      [0x51 + UInt8.ofNat keys.length - 1, 0xae] := by
    rw [e1, e2]; rfl
  unfold multiRedeem
  rw [if_neg, if_neg, if_neg (by omega), if_neg]
  · simp only [← e3]
  · simp only [List.any_eq_true, not_exists, not_and]
    intro k hkm
    rcases hk k hkm with h | h <;> simp [h]
  · intro hc
    have : (UInt8.ofNat keys.length).toNat < m.toNat := hc
    simp at this
    omega
  · intro hc
    have : m.toNat < (1 : UInt8).toNat := hc
    simp at this
    omega

end Btc

/-- C27, restricted to at most 15 keys: the redeem script for `m` of 15 or fewer compressed keys is the standard multisig script, and parsing it gives
`m` and the keys in order. Missing: 16 keys, see `C27_sixteen_keys_violated`. -/
theorem C27_roundtrip_partial (m : UInt8) (keys : List Bytes) (hm1 : 1 ≤ m.toNat) (hm2 : m.toNat ≤ keys.length)
    (hn : keys.length ≤ 15) (hk : ∀ k ∈ keys, k.length = 33) :
    multiRedeem m keys = .ok (multisigScript m.toNat keys) ∧
      getMultiDetails (multisigScript m.toNat keys) = .ok (m, keys) := by
  have hlen : ((keys.map push).flatten).length = 34 * keys.length := by
    rw [flatten_length_map push (fun _ => 34) keys (fun k hkm => by simp [push, hk k hkm])]
    simp only [List.map_const', List.sum_replicate_nat, Nat.mul_comm]
  refine ⟨?_, ?_⟩
  · rw [multiRedeem_eq m keys hm1 hm2 (by omega) (fun k h => Or.inl (hk k h)), if_neg]
    simp only [multisigScript, List.length_append, hlen, List.length_cons, List.length_nil]
    omega
  · have hy : UInt8.ofNat (0x50 + keys.length) ≠ 0x21 := u8_ofNat_ne (by omega) (by simp; omega)
    have e1 : UInt8.ofNat (0x50 + m.toNat) + 1 - 0x51 = m := by
      apply UInt8.toNat_inj.mp
      simp [UInt8.toNat_sub, UInt8.toNat_add]
      omega
    have e2 : UInt8.ofNat (0x50 + keys.length) + 1 - 0x51 = UInt8.ofNat keys.length := by
      apply UInt8.toNat_inj.mp
      simp [UInt8.toNat_sub, UInt8.toNat_add]
      omega
    unfold getMultiDetails multisigScript
    simp only [List.cons_append, List.nil_append, take1, Res.bind_ok, e1]
    rw [if_neg]
    · rw [readKeys_ok _ [0xae] hy keys _ (by simp [hlen]; omega) hk]
      simp only [Res.bind_ok, e2]
      rw [if_neg]
      rintro (hc | hc)
      · exact hc rfl
      · have : (UInt8.ofNat keys.length).toNat < m.toNat := hc
        simp at this
        omega
    · rintro (hc | hc)
      · have : m.toNat ≤ (0 : UInt8).toNat := hc
        simp at this
        omega
      · have : (16 : UInt8).toNat < m.toNat := hc
        simp at this
        omega

example : ∃ keys : List Bytes, keys.length = 15 ∧ (∀ k ∈ keys, k.length = 33) ∧ keys.Nodup :=
  ⟨(List.range 15).map (fun i => UInt8.ofNat i :: List.replicate 32 7), by decide +kernel, by decide +kernel, by decide +kernel⟩

/-- C27 is false for 16 keys: every policy of 16 compressed keys is rejected, although 16 is the documented maximum. -/
theorem C27_sixteen_keys_violated (m : UInt8) (keys : List Bytes) (hn : keys.length = 16) (hk : ∀ k ∈ keys, k.length = 33) :
    multiRedeem m keys = .err := by
  have hlen : ((keys.map push).flatten).length = 34 * keys.length := by
    rw [flatten_length_map push (fun _ => 34) keys (fun k hkm => by simp [push, hk k hkm])]
    simp only [List.map_const', List.sum_replicate_nat, Nat.mul_comm]
  by_cases h1 : 1 ≤ m.toNat
  · by_cases h2 : m.toNat ≤ keys.length
    · rw [multiRedeem_eq m keys h1 h2 (by omega) (fun k h => Or.inl (hk k h)), if_pos]
      simp only [multisigScript, List.length_append, hlen, List.length_cons, List.length_nil]
      omega
    · unfold multiRedeem
      split
      · rfl
      · rw [if_pos]
        show (UInt8.ofNat keys.length).toNat < m.toNat
        rw [hn] at h2 ⊢
        simpa using h2
  · unfold multiRedeem
    rw [if_pos]
    show m.toNat < (1 : UInt8).toNat
    simp
    omega

/-- C27 is false for uncompressed keys: `CreateMultiSig` accepts 65-byte keys, but the redeem script is then rejected by the parser used for
signing and verifying, so that funds sent to the address cannot be spent with this package. -/
theorem C27_uncompressed_violated (m : UInt8) (keys : List Bytes) (redeem : Bytes) (hr : multiRedeem m keys = .ok redeem)
    (a : List Bytes) (k : Bytes) (b : List Bytes) (hab : keys = a ++ k :: b) (ha : ∀ x ∈ a, x.length = 33)
    (hk : k.length = 65) : getMultiDetails redeem = .err := by
  unfold multiRedeem at hr
  split at hr
  · simp at hr
  rename_i c1
  split at hr
  · simp at hr
  rename_i c2
  split at hr
  · simp at hr
  rename_i c3
  split at hr
  · simp at hr
  simp only at hr
  split at hr
  · simp at hr
  simp only [Res.ok.injEq] at hr
  have hshape : ∃ x tail, redeem = x :: ((a.map push).flatten ++ 0x41 :: tail) := by
    refine ⟨0x51 + m - 1, k ++ ((b.map push).flatten ++ [0x51 + UInt8.ofNat keys.length - 1, 0xae]), ?_⟩
    rw [← hr]
    generalize (0x51 + UInt8.ofNat keys.length - 1 : UInt8) = z
    rw [hab]
    simp only [List.map_append, List.map_cons, List.flatten_append, List.flatten_cons, hk, List.cons_append, List.append_assoc]
    rfl
  obtain ⟨x, tail, rfl⟩ := hshape
  have hal : a.length < 16 := by rw [hab] at c3; simp at c3; omega
  unfold getMultiDetails
  simp only [take1, Res.bind_ok]
  split
  · rfl
  · have hlen : a.length ≤ ((a.map push).flatten).length := by
      rw [flatten_length_map push (fun _ => 34) a (fun k hkm => by simp [push, ha k hkm])]
      simp only [List.map_const', List.sum_replicate_nat]
      omega
    rw [readKeys_ok 0x41 tail (by decide) a _ (by simp only [List.length_append, List.length_cons]; omega) ha]
    simp only [Res.bind_ok]
    rw [if_pos]
    left
    intro hc
    have := congrArg UInt8.toNat hc
    simp at this
    omega

example : ∃ redeem, multiRedeem 1 [List.replicate 33 2, List.replicate 65 4] = .ok redeem := ⟨_, rfl⟩

/-! ### C28: verification -/

namespace Btc

theorem tryKeys_ok (C : Curve) (th : Bytes) (sig : Option Bytes) : ∀ (l : List MultiTx),
    (∀ m ∈ l, (C.decompress (m.sigPub.pubkey.getD [])).length ≠ 0) →
    tryKeys C th sig l = .ok (decide (∃ m ∈ l, C.verify ((C.decompress (m.sigPub.pubkey.getD [])).drop 1) th (sig.getD []) = true))
  | [], _ => by simp [tryKeys]
  | m :: ms, h => by
    have h0 := h m (by simp)
    rw [tryKeys]
    unfold pubPoint
    simp only
    rw [slice_ok (by omega) (by omega), List.take_length]
    simp only [Res.bind_ok]
    split
    · rename_i hv
      congr 1
      symm
      rw [decide_eq_true_eq]
      exact ⟨m, by simp, hv⟩
    · rename_i hv
      rw [tryKeys_ok C th sig ms (fun x hx => h x (by simp [hx]))]
      congr 1
      rw [decide_eq_decide]
      constructor
      · rintro ⟨x, hx, h1⟩
        exact ⟨x, by simp [hx], h1⟩
      · rintro ⟨x, hx, h1⟩
        rcases List.mem_cons.mp hx with rfl | hx
        · exact absurd h1 hv
        · exact ⟨x, hx, h1⟩

/-- Position `i` of the signatures verifies under a key at position `i` or later. -/
def LaterKey (C : Curve) (th : Bytes) (multi : List MultiTx) (i : Nat) : Prop :=
  ∃ j s k, i ≤ j ∧ multi[i]? = some s ∧ multi[j]? = some k ∧
    C.verify ((C.decompress (k.sigPub.pubkey.getD [])).drop 1) th (s.sigPub.signature.getD []) = true

theorem countValid_le (C : Curve) (th : Bytes) (multi : List MultiTx)
    (h : ∀ m ∈ multi, (C.decompress (m.sigPub.pubkey.getD [])).length ≠ 0) : ∀ (l : List Nat) (c r : Nat),
    countValid C th multi l c = .ok r → r ≤ c + l.length
  | [], c, r, hr => by simp [countValid] at hr; omega
  | i :: is, c, r, hr => by
    rw [countValid] at hr
    split at hr
    · have := countValid_le C th multi h is c r hr
      simp; omega
    · rw [Res.bind_eq_ok] at hr
      obtain ⟨m, _, hr⟩ := hr
      rw [Res.bind_eq_ok] at hr
      obtain ⟨ok, _, hr⟩ := hr
      have := countValid_le C th multi h is _ r hr
      simp only [List.length_cons]
      split at this <;> omega

/-- Running over positions c, c+1, ..., c+n-1 starting with count c succeeds n times exactly if every position has a later key. -/
theorem countValid_iff (C : Curve) (th : Bytes) (multi : List MultiTx)
    (h : ∀ m ∈ multi, (C.decompress (m.sigPub.pubkey.getD [])).length ≠ 0) : ∀ (n c : Nat),
    countValid C th multi (List.range' c n) c = .ok (c + n) ↔ ∀ i, c ≤ i → i < c + n → LaterKey C th multi i
  | 0, c => by
    simp [countValid]
    intro i h1 h2; omega
  | n + 1, c => by
    rw [List.range'_succ, countValid]
    by_cases hc : multi.length ≤ c
    · rw [if_pos hc]
      constructor
      · intro hr
        have := countValid_le C th multi h _ _ _ hr
        simp at this
      · intro hall
        obtain ⟨j, s, k, _, h2, _⟩ := hall c (by omega) (by omega)
        have := (List.getElem?_eq_some_iff.mp h2).1
        omega
    · rw [if_neg hc, index_ok (by omega)]
      simp only [Res.bind_ok]
      rw [tryKeys_ok C th _ _ (fun m hm => h m (List.mem_of_mem_drop hm))]
      simp only [Res.bind_ok]
      by_cases hv : ∃ m ∈ multi.drop c, C.verify ((C.decompress (m.sigPub.pubkey.getD [])).drop 1) th
          ((multi[c]'(by omega)).sigPub.signature.getD []) = true
      · have hL : LaterKey C th multi c := by
          obtain ⟨k, hk, hv⟩ := hv
          obtain ⟨j, hj, rfl⟩ := List.mem_iff_getElem.mp hk
          simp only [List.length_drop] at hj
          refine ⟨c + j, multi[c]'(by omega), multi[c + j]'(by omega), by omega, List.getElem?_eq_getElem _,
            List.getElem?_eq_getElem _, ?_⟩
          simpa using hv
        simp only [hv, decide_true, if_true]
        have := countValid_iff C th multi h n (c + 1)
        rw [show c + (n + 1) = c + 1 + n by omega, this]
        constructor
        · intro hh i h1 h2
          by_cases hic : i = c
          · rw [hic]; exact hL
          · exact hh i (by omega) (by omega)
        · intro hh i h1 h2
          exact hh i (by omega) (by omega)
      · simp only [hv, decide_false, Bool.false_eq_true, if_false]
        constructor
        · intro hr
          have := countValid_le C th multi h _ _ _ hr
          simp at this
        · intro hall
          obtain ⟨j, s, k, h1, h2, h3, h4⟩ := hall c (by omega) (by omega)
          exfalso
          apply hv
          obtain ⟨l2, rfl⟩ := List.getElem?_eq_some_iff.mp h2
          obtain ⟨l3, rfl⟩ := List.getElem?_eq_some_iff.mp h3
          refine ⟨multi[j], ?_, h4⟩
          rw [List.mem_iff_getElem]
          exact ⟨j - c, by simp; omega, by simp [show c + (j - c) = j by omega]⟩

end Btc

/-- C28, restricted: the check of a multisig input succeeds exactly if, for every i below the required number, the i-th signature verifies under
some key at position i or later. (All keys are assumed to decompress to something.) In particular every counted signature verifies under a listed key, and
signatures given in the order of their keys are accepted. Missing: the keys need not be distinct, see `C28_one_key_violated`. -/
theorem C28_each_signature_partial (C : Curve) (h : TxHash) (msg : Bytes) (hm : Hex.decode h.hash = .ok msg)
    (hreq : h.nRequired ≠ 0) (hkeys : ∀ m ∈ h.multi, (C.decompress (m.sigPub.pubkey.getD [])).length ≠ 0) :
    verifyOne C h = .ok true ↔ ∀ i < h.nRequired.toNat, ∃ j s k, i ≤ j ∧ h.multi[i]? = some s ∧ h.multi[j]? = some k ∧
      C.verify ((C.decompress (k.sigPub.pubkey.getD [])).drop 1) msg (s.sigPub.signature.getD []) = true := by
  have key := countValid_iff C msg h.multi hkeys h.nRequired.toNat 0
  unfold verifyOne
  simp only [hm]
  rw [if_neg hreq]
  rw [List.range_eq_range']
  constructor
  · intro hv i hi
    rw [Res.bind_eq_ok] at hv
    obtain ⟨c, h1, h2⟩ := hv
    simp only [Res.ok.injEq, beq_iff_eq] at h2
    rw [h2] at h1
    exact (key.mp (by simpa using h1)) i (by omega) (by omega)
  · intro hall
    have := key.mpr (fun i _ h2 => hall i (by omega))
    simp only [Nat.zero_add] at this
    rw [this]
    simp

/-- C28 is false: one signature, repeated, by the second key alone satisfies every 2-of-n check, whatever the other keys. -/
theorem C28_one_key_violated (C : Curve) (h : TxHash) (msg sig : Bytes) (m0 m1 : MultiTx) (rest : List MultiTx)
    (hm : Hex.decode h.hash = .ok msg) (hreq : h.nRequired = 2) (hmulti : h.multi = m0 :: m1 :: rest)
    (hs0 : m0.sigPub.signature = some sig) (hs1 : m1.sigPub.signature = some sig)
    (hkeys : ∀ m ∈ h.multi, (C.decompress (m.sigPub.pubkey.getD [])).length ≠ 0)
    (hv : C.verify ((C.decompress (m1.sigPub.pubkey.getD [])).drop 1) msg sig = true) : verifyOne C h = .ok true := by
  rw [C28_each_signature_partial C h msg hm (by rw [hreq]; decide) hkeys]
  intro i hi
  rw [hreq] at hi
  have hi : i = 0 ∨ i = 1 := by
    have : (2 : UInt8).toNat = 2 := rfl
    omega
  rcases hi with rfl | rfl
  · exact ⟨1, m0, m1, by omega, by simp [hmulti], by simp [hmulti], by simpa [hs0] using hv⟩
  · exact ⟨1, m1, m1, by omega, by simp [hmulti], by simp [hmulti], by simpa [hs1] using hv⟩

end Verif
