import Verif.Model.Alien
import Verif.Spec.Alien
import Verif.Lemmas.Verge

/-! Lemmas about `aliencoinTransaction`. -/

namespace Verif.Alien
open Verif Verif.Spec Verif.Spec.Verge Verif.Spec.Alien
open Verif.HyperCash (mapAll mapAll_iff varBytes_short)
open Verif.Verge (Vin Vout TxIn TxOut SigPub TxStruct InOf OutOf Std mIn mOut decodeCheck_iff base58Check_inj forall₂_congr_mem newIns_iff inBytes
  outBytes outs_toBytes readMany_flat readIn_ok readOut_ok dest_length zipWith_withLock Fits txid_length split_locks decode_no_colon Small
  ofNat_cons varBytes_push outs_wire zipWith_map_self zipWith_mapIdx_self inWire_nil mapAll_ok Valid signLoop_iff)

def mTx (t : ATx) : TxStruct := ⟨[1, 0, 0, 0], [], t.ins.map mIn, t.outs.map mOut, leBytes 4 t.lockTime⟩

theorem newTxOut_iff (H : Hashes) (v : Vout) (x : TxOut) (hs : Std H [0x17] [0x30] v.address) :
    newTxOut H v = .ok x ↔ ∃ o, OutOf H [0x17] [0x30] v o ∧ x = mOut o := by
  unfold newTxOut OutOf mOut
  obtain ⟨h, hl, hb | hb⟩ := hs
  · rw [(decodeCheck_iff H _ _ _).mpr hb, Res.bind_ok]
    simp only [if_true]
    constructor
    · intro e
      cases e
      refine ⟨⟨v.amount.toNat, p2pkhScript h⟩, ⟨rfl, h, hl, .inl ⟨hb, rfl⟩⟩, ?_⟩
      simp only [push, p2pkhScript, List.length_append, List.length_cons, List.length_nil, hl]
      rfl
    · rintro ⟨o, ⟨h1, k, hk, ⟨h2, h3⟩ | ⟨h2, h3⟩⟩, rfl⟩
      · obtain ⟨_, rfl⟩ := base58Check_inj hb h2
        rw [h1, h3]
        simp only [push, p2pkhScript, List.length_append, List.length_cons, List.length_nil, hl]
        rfl
      · exact absurd (base58Check_inj hb h2).1 (by decide)
  · rw [(decodeCheck_iff H _ _ _).mpr hb, Res.bind_ok]
    simp only [if_true]
    rw [if_neg (by decide)]
    constructor
    · intro e
      cases e
      refine ⟨⟨v.amount.toNat, p2shScript h⟩, ⟨rfl, h, hl, .inr ⟨hb, rfl⟩⟩, ?_⟩
      simp only [push, p2shScript, List.length_append, List.length_cons, List.length_nil, hl]
      rfl
    · rintro ⟨o, ⟨h1, k, hk, ⟨h2, h3⟩ | ⟨h2, h3⟩⟩, rfl⟩
      · exact absurd (base58Check_inj hb h2).1 (by decide)
      · obtain ⟨_, rfl⟩ := base58Check_inj hb h2
        rw [h1, h3]
        simp only [push, p2shScript, List.length_append, List.length_cons, List.length_nil, hl]
        rfl

theorem newOuts_iff (H : Hashes) (outs : List Vout) (xs : List TxOut) (hs : ∀ v ∈ outs, Std H [0x17] [0x30] v.address) :
    mapAll (newTxOut H) outs = .ok xs ↔ ∃ os, List.Forall₂ (OutOf H [0x17] [0x30]) outs os ∧ xs = os.map mOut := by
  rw [mapAll_iff, forall₂_congr_mem fun a ha b => newTxOut_iff H a b (hs a ha), Elastos.forall₂_exists]

/-- The transaction a request describes. -/
def TxOf (H : Hashes) (ins : List Vin) (outs : List Vout) (lockTime : UInt32) (t : ATx) : Prop :=
  List.Forall₂ InOf ins t.ins ∧ List.Forall₂ (OutOf H [0x17] [0x30]) outs t.outs ∧
    t.lockTime = lockTime.toNat

theorem newTxStruct_iff (H : Hashes) (ins : List Vin) (outs : List Vout) (lt : UInt32) (x : TxStruct)
    (hs : ∀ v ∈ outs, Std H [0x17] [0x30] v.address) :
    newTxStruct H ins outs lt = .ok x ↔ ∃ t, TxOf H ins outs lt t ∧ x = mTx t := by
  unfold newTxStruct TxOf mTx
  constructor
  · intro h
    obtain ⟨i, hi, h⟩ := Res.bind_eq_ok.mp h
    obtain ⟨o, ho, h⟩ := Res.bind_eq_ok.mp h
    cases h
    obtain ⟨is, his, rfl⟩ := (newIns_iff _ _).mp hi
    obtain ⟨os, hos, rfl⟩ := (newOuts_iff H _ _ hs).mp ho
    exact ⟨⟨is, os, lt.toNat⟩, ⟨his, hos, rfl⟩, rfl⟩
  · rintro ⟨t, ⟨h2, h3, h4⟩, rfl⟩
    rw [(newIns_iff _ _).mpr ⟨_, h2, rfl⟩, Res.bind_ok, (newOuts_iff H _ _ hs).mpr ⟨_, h3, rfl⟩, Res.bind_ok, h4]

theorem mIn_toBytes (i : In) : inToBytes (mIn i) = .ok (inBytes i) := rfl

theorem ins_toBytes (is : List In) : mapAll inToBytes (is.map mIn) = .ok (is.map inBytes) := by
  rw [mapAll_ok (g := fun x => x.txid ++ x.vout ++ [0] ++ x.sequence)]
  · rw [List.map_map]; rfl
  · intro x hx
    obtain ⟨i, _, rfl⟩ := List.mem_map.mp hx
    rfl

/-- The bytes of an unsigned transaction of the code. -/
def rawBytes (t : ATx) : Bytes :=
  [1, 0, 0, 0] ++ UInt8.ofNat t.ins.length :: t.ins.flatMap inBytes ++ UInt8.ofNat t.outs.length :: t.outs.flatMap outBytes ++
    leBytes 4 t.lockTime

theorem mTx_toBytes (t : ATx) : toBytes (mTx t) = .ok (rawBytes t) := by
  unfold toBytes mTx rawBytes
  simp only
  rw [ins_toBytes, Res.bind_ok, outs_toBytes, List.length_map, List.length_map, List.flatMap]
  rfl

theorem decodeRaw_ok (H : Hashes) (ins : List Vin) (outs : List Vout) (lt : UInt32) (t : ATx)
    (ht : TxOf H ins outs lt t) (hf : Fits ins outs) :
    decodeRaw (Hex.encode (rawBytes t) ++ ins.flatMap fun v => 0x3a :: v.lock) = .ok (mTx t, ins.map (·.lock)) := by
  obtain ⟨hi, ho, _⟩ := ht
  obtain ⟨f1, f2, f3, f4⟩ := hf
  unfold decodeRaw
  rw [split_locks _ _ (fun h => (HyperCash.hex_mem _ _ h).1 rfl) (fun v hv => by
    obtain ⟨i, _, h⟩ := Elastos.forall₂_mem hi.flip v hv
    exact decode_no_colon _ _ h.2.2)]
  simp only
  rw [if_neg (by simpa using f1), Hex.decode_encode, Res.bind_ok]
  have e : rawBytes t = [1, 0, 0, 0] ++ (UInt8.ofNat t.ins.length :: (t.ins.flatMap inBytes ++
      UInt8.ofNat t.outs.length :: (t.outs.flatMap outBytes ++ (leBytes 4 t.lockTime ++ [])))) := by
    simp [rawBytes]
  rw [e, Btc.takeN_append (n := 4) [1, 0, 0, 0] _ rfl, Res.bind_ok]
  simp only [Btc.take1, Res.bind_ok]
  rw [show (UInt8.ofNat t.ins.length).toNat = t.ins.length from by
      rw [UInt8.toNat_ofNat']; have := hi.length_eq; omega,
    readMany_flat (k := fun i => ({ mIn i with lock := [] } : TxIn)) t.ins (fun i hm r => readIn_ok i (txid_length hi f4 i hm) r), Res.bind_ok]
  simp only [Res.bind_ok]
  rw [show (UInt8.ofNat t.outs.length).toNat = t.outs.length from by
      rw [UInt8.toNat_ofNat']; have := ho.length_eq; omega,
    readMany_flat (k := mOut) t.outs (fun o hm r => readOut_ok o (by
      obtain ⟨v, _, _, hd⟩ := Elastos.forall₂_mem ho o hm
      have := dest_length hd
      omega) r), Res.bind_ok]
  simp only
  rw [Btc.takeN_append _ _ (leBytes_length _ _), Res.bind_ok]
  simp only
  rw [if_neg (by simp), if_neg (by simp [hi.length_eq]), zipWith_withLock hi]
  rfl

theorem getHash_eq (H : Hashes) (t : ATx) :
    getHash H (mTx t) = (List.range t.ins.length).map fun k => Hex.encode (H.hash .doubleSha256 (hashData (mTx t) k)) := by
  unfold getHash mTx
  rw [List.length_map]

theorem rawBytes_eq (t : ATx) (h : Small t.ins t.outs) : rawBytes t = t.unsigned := by
  obtain ⟨h1, h2, _, h4⟩ := h
  unfold rawBytes ATx.unsigned ATx.wire
  rw [zipWith_map_self, ofNat_cons h1, ofNat_cons h2, outs_wire h4]
  simp only [inWire_nil, List.append_assoc]
  rfl

theorem hashData_eq (t : ATx) (h : Small t.ins t.outs) (k : Nat) : hashData (mTx t) k = t.preimage k := by
  obtain ⟨h1, h2, h3, h4⟩ := h
  unfold hashData ATx.preimage ATx.wire mTx
  simp only
  rw [List.length_map, List.length_map, ofNat_cons h1, ofNat_cons h2, outs_toBytes, outs_wire h4, zipWith_mapIdx_self]
  have e : ((t.ins.map mIn).mapIdx fun j i => i.txid ++ i.vout ++ (if j = k then i.lock else [0]) ++ i.sequence) =
      t.ins.mapIdx fun j a => inWire a (if j = k then a.lock else []) := by
    refine List.ext_getElem (by simp) fun j hj _ => ?_
    have hj' : j < t.ins.length := by simpa using hj
    simp only [List.getElem_mapIdx, List.getElem_map]
    unfold inWire mIn
    simp only
    by_cases hk : j = k
    · rw [if_pos hk, if_pos hk, varBytes_push (h3 _ (List.getElem_mem hj'))]
    · rw [if_neg hk, if_neg hk, varBytes_push (by simp)]; rfl
  rw [← e]
  simp only [List.append_assoc]
  rfl


/-! ### Combining -/

theorem strip_inv : ∀ (n i : Nat) (x o : Bytes), x.length = 32 → n + i = 32 → i ≤ 16 → strip n i (x.drop i) = .ok o →
    ∃ k, i ≤ k ∧ (∀ j, i ≤ j → j < k → x[2 * j]? = some 0) ∧ (∃ c, x[2 * k]? = some c ∧ c ≠ 0) ∧ o = x.drop k
  | 0, i, _, _, _, h1, h2, _ => by omega
  | n + 1, i, x, o, hl, h1, h2, h => by
    unfold strip at h
    obtain ⟨c, hc, h⟩ := Res.bind_eq_ok.mp h
    have hx : x[2 * i]? = some c := by
      unfold index at hc
      rw [List.getElem?_drop, ← Nat.two_mul] at hc
      split at hc
      · cases hc; assumption
      · cases hc
    split at h
    · rename_i h0
      subst h0
      have hi : 2 * i < 32 := by rw [← hl]; exact (List.getElem?_eq_some_iff.mp hx).1
      rw [List.drop_drop] at h
      obtain ⟨k, a1, a2, a3, a4⟩ := strip_inv n (i + 1) x o hl (by omega) (by omega) h
      refine ⟨k, by omega, ?_, a3, a4⟩
      intro j b1 b2
      rcases Nat.eq_or_lt_of_le b1 with rfl | b1
      · exact hx
      · exact a2 j b1 b2
    · rename_i h0
      cases h
      exact ⟨i, le_refl i, by intro j a b; omega, ⟨c, hx, h0⟩, rfl⟩

theorem strip_ok : ∀ (n i : Nat) (x : Bytes) (k : Nat), x.length = 32 → n + i = 32 → i ≤ k → (∀ j, i ≤ j → j < k → x[2 * j]? = some 0) →
    (∃ c, x[2 * k]? = some c ∧ c ≠ 0) → strip n i (x.drop i) = .ok (x.drop k)
  | n, i, x, k, hl, h1, h2, h3, h4 => by
    obtain ⟨c, hc, c0⟩ := h4
    have hk : 2 * k < 32 := by rw [← hl]; exact (List.getElem?_eq_some_iff.mp hc).1
    obtain ⟨m, rfl⟩ : ∃ m, n = m + 1 := ⟨n - 1, by omega⟩
    unfold strip
    rcases Nat.eq_or_lt_of_le h2 with rfl | h2
    · unfold index
      rw [List.getElem?_drop, ← Nat.two_mul, hc]
      simp [c0]
    · unfold index
      rw [List.getElem?_drop, ← Nat.two_mul, h3 i (le_refl i) h2]
      simp only [Res.bind_ok, if_true, List.drop_drop]
      exact strip_ok m (i + 1) x k hl (by omega) h2 (fun j a b => h3 j (by omega) b) ⟨c, hc, c0⟩

theorem strip_panic : ∀ (n i : Nat) (x : Bytes), x.length = 32 → n + i = 32 → i ≤ 16 →
    (strip n i (x.drop i) = .panic ↔ ∀ j, i ≤ j → j < 16 → x[2 * j]? = some 0)
  | 0, i, _, _, h1, h2 => by omega
  | n + 1, i, x, hl, h1, h2 => by
    unfold strip index
    rw [List.getElem?_drop, ← Nat.two_mul]
    by_cases hi : i = 16
    · subst hi
      rw [List.getElem?_eq_none (by omega)]
      exact ⟨fun _ j a b => by omega, fun _ => rfl⟩
    · have hlt : 2 * i < x.length := by omega
      rw [List.getElem?_eq_getElem hlt]
      simp only [Res.bind_ok]
      split
      · rename_i h0
        rw [List.drop_drop, strip_panic n (i + 1) x hl (by omega) (by omega)]
        constructor
        · intro h j a b
          rcases Nat.eq_or_lt_of_le a with rfl | a
          · rw [List.getElem?_eq_getElem hlt, h0]
          · exact h j a b
        · intro h j a b
          exact h j (by omega) b
      · rename_i h0
        constructor
        · intro h; cases h
        · intro h
          have := h i (le_refl i) (by omega)
          rw [List.getElem?_eq_getElem hlt] at this
          exact absurd (Option.some.inj this) h0

theorem beNat_zeros : ∀ (k : Nat) (x : Bytes), (∀ j < k, x[j]? = some 0) → beNat (x.drop k) = beNat x
  | 0, x, _ => rfl
  | k + 1, x, h => by
    cases x with
    | nil => rfl
    | cons a x =>
      have h0 := h 0 (by omega)
      simp only [List.getElem?_cons_zero, Option.some.injEq] at h0
      subst h0
      rw [List.drop_succ_cons, beNat_zeros k x (fun j hj => by simpa using h (j + 1) (by omega))]
      simp [beNat_cons]

theorem zeros_of_beNat : ∀ (k : Nat) (x : Bytes), k ≤ x.length → beNat (x.drop k) = beNat x → ∀ j < k, x[j]? = some 0
  | 0, _, _, _, j, hj => by omega
  | k + 1, [], hl, _, _, _ => by simp at hl
  | k + 1, a :: x, hl, h, j, hj => by
    rw [List.drop_succ_cons] at h
    have hle : ∀ (k : Nat) (x : Bytes), beNat (x.drop k) ≤ beNat x := by
      intro k
      induction k with
      | zero => intro x; exact le_refl _
      | succ k ih =>
        intro x
        cases x with
        | nil => exact le_refl _
        | cons b x => rw [List.drop_succ_cons, beNat_cons]; exact le_trans (ih x) (Nat.le_add_left _ _)
    have h1 := hle k x
    rw [beNat_cons] at h
    have ha : a = 0 := by
      by_contra hn
      have : 1 ≤ a.toNat := Nat.one_le_iff_ne_zero.mpr fun e => hn (UInt8.toNat_inj.mp e)
      have h2 : 0 < 256 ^ x.length := Nat.pow_pos (by omega)
      have h3 : 256 ^ x.length ≤ a.toNat * 256 ^ x.length := Nat.le_mul_of_pos_left _ this
      omega
    subst ha
    cases j with
    | zero => rfl
    | succ j =>
      rw [List.getElem?_cons_succ]
      refine zeros_of_beNat k x (by simpa using hl) ?_ j (by omega)
      simpa using h

theorem derBody_plain (x : Bytes) (h : Plain x) (hl : x.length = 32) : ∃ R, derBody x = .ok R ∧ IsDerInt R (beNat x) ∧ R.length ≤ 33 := by
  obtain ⟨k, h1, h2, h3⟩ := h
  have hs := strip_ok 32 0 x k hl rfl (Nat.zero_le k) (fun j _ hj => (h1 j hj).2) h2
  rw [List.drop_zero] at hs
  obtain ⟨a, t, rfl⟩ : ∃ a t, x = a :: t := by
    cases x with
    | nil => simp at hl
    | cons a t => exact ⟨a, t, rfl⟩
  unfold derBody
  simp only [index, List.getElem?_cons_zero, Res.bind_ok]
  rcases Nat.eq_zero_or_pos k with rfl | hk
  · obtain ⟨c, hc, ha⟩ := h2
    simp only [Nat.mul_zero, List.getElem?_cons_zero, Option.some.injEq] at hc
    subst hc
    by_cases h8 : a ≥ 0x80
    · rw [if_pos h8]
      refine ⟨_, rfl, ⟨by simp [beNat_cons], by simp, by simp, ?_⟩, by simp at hl ⊢; omega⟩
      intro y t' e
      cases e
      exact h8
    · rw [if_neg h8]
      refine ⟨_, hs, ⟨rfl, by simp, ?_, ?_⟩, by simp at hl ⊢; omega⟩
      · intro y hy
        simp only [List.drop_zero, List.head?_cons, Option.mem_def, Option.some.injEq] at hy
        subst hy
        exact Nat.lt_of_not_le h8
      · intro y t' e
        rw [List.drop_zero] at e
        cases e
        exact absurd rfl ha
  · have h0 := (h1 0 hk).1
    simp only [List.getElem?_cons_zero, Option.some.injEq] at h0
    subst h0
    rw [if_neg (by decide)]
    rcases h3 with h3 | ⟨a, b, t', h3, h4, h5⟩
    · omega
    · refine ⟨_, hs, ⟨beNat_zeros k _ (fun j hj => (h1 j hj).1), by rw [h3]; simp, ?_, ?_⟩, by rw [List.length_drop]; omega⟩
      · intro y hy
        rw [h3] at hy
        simp only [List.head?_cons, Option.mem_def, Option.some.injEq] at hy
        subst hy
        exact h4
      · intro y t2 e
        rw [h3] at e
        cases e
        exact h5 rfl

/-- Other numbers are not written properly. -/
theorem plain_of_derBody (x R : Bytes) (hl : x.length = 32) (h : derBody x = .ok R) (hR : IsDerInt R (beNat x)) : Plain x := by
  obtain ⟨a, t, rfl⟩ : ∃ a t, x = a :: t := by
    cases x with
    | nil => simp at hl
    | cons a t => exact ⟨a, t, rfl⟩
  unfold derBody at h
  simp only [index, List.getElem?_cons_zero, Res.bind_ok] at h
  split at h
  · rename_i h8
    refine ⟨0, by intro j hj; omega, ⟨a, rfl, ?_⟩, Or.inl rfl⟩
    rintro rfl
    exact absurd h8 (by decide)
  · obtain ⟨k, -, h2, h3, rfl⟩ := strip_inv 32 0 (a :: t) R hl rfl (by omega) (by simpa using h)
    obtain ⟨c, hc, c0⟩ := h3
    have hk : 2 * k < 32 := by rw [← hl]; exact (List.getElem?_eq_some_iff.mp hc).1
    refine ⟨k, fun j hj => ⟨zeros_of_beNat k _ (by omega) hR.value j hj, h2 j (Nat.zero_le j) hj⟩, ⟨c, hc, c0⟩, ?_⟩
    rcases Nat.eq_zero_or_pos k with rfl | hp
    · exact Or.inl rfl
    · right
      have hlen : ((a :: t).drop k).length = 32 - k := by rw [List.length_drop, hl]
      match hd : (a :: t).drop k, hlen with
      | [], hlen => simp at hlen; omega
      | [_], hlen => simp at hlen; omega
      | y :: z :: t', _ =>
        rw [hd] at hR
        refine ⟨y, z, t', rfl, hR.nonneg y (by simp), ?_⟩
        rintro rfl
        exact hR.minimal z t' rfl

theorem derBody_panic (x : Bytes) (hl : x.length = 32) : derBody x = .panic ↔ EvenZero x := by
  have hs := strip_panic 32 0 x hl rfl (by omega)
  rw [List.drop_zero] at hs
  obtain ⟨a, t, rfl⟩ : ∃ a t, x = a :: t := by
    cases x with
    | nil => simp at hl
    | cons a t => exact ⟨a, t, rfl⟩
  unfold derBody
  simp only [index, List.getElem?_cons_zero, Res.bind_ok]
  split
  · rename_i h8
    constructor
    · intro h; cases h
    · intro h
      have := h 0 (by omega)
      simp only [Nat.mul_zero, List.getElem?_cons_zero, Option.some.injEq] at this
      subst this
      exact absurd h8 (by decide)
  · rw [hs]
    exact ⟨fun h j hj => h j (Nat.zero_le j) hj, fun h j _ hj => h j hj⟩

theorem derBody_not_err (x : Bytes) : derBody x ≠ .err := by
  have hs : ∀ (n i : Nat) (r : Bytes), strip n i r ≠ .err := by
    intro n
    induction n with
    | zero => intro i r h; cases h
    | succ n ih =>
      intro i r h
      unfold strip index at h
      split at h
      · simp only [Res.bind_ok] at h
        split at h
        · exact ih _ _ h
        · cases h
      · cases h
  unfold derBody index
  intro h
  split at h
  · simp only [Res.bind_ok] at h
    split at h
    · cases h
    · exact hs _ _ _ h
  · cases h

/-- Both halves of the signature are plain. -/
def PlainSig (sp : SigPub) : Prop := Plain (sp.sig.take 32) ∧ Plain (sp.sig.drop 32)

theorem sigPubBytes_iff (sp : SigPub) (e : Bytes) (h1 : sp.sig.length = 64) (h2 : sp.pub.length = 33) (hp : PlainSig sp) :
    sigPubBytes sp = .ok e ↔ ∃ u, IsUnlock sp.sig sp.pub u ∧ e = varBytes u := by
  unfold sigPubBytes
  rw [slice_ok (by omega) (by omega)]
  simp only [Res.bind_ok, List.drop_zero]
  obtain ⟨R, r1, r2, r3⟩ := derBody_plain _ hp.1 (by simp [h1])
  obtain ⟨S, s1, s2, s3⟩ := derBody_plain _ hp.2 (by simp [h1])
  rw [r1, s1]
  simp only [Res.bind_ok]
  have key : ∀ X, X = push (derSig R S ++ [1]) ++ push sp.pub → (Res.ok (UInt8.ofNat X.length :: X) = Res.ok e ↔
      ∃ u, IsUnlock sp.sig sp.pub u ∧ e = varBytes u) := by
    intro X hX
    have hl : X.length < 253 := by rw [hX]; simp [push, derSig, h2]; omega
    constructor
    · intro h
      refine ⟨X, ⟨R, S, r2, s2, hX⟩, ?_⟩
      rw [varBytes_short hl]
      exact (Res.ok.inj h).symm
    · rintro ⟨u, ⟨R', S', hR, hS, rfl⟩, rfl⟩
      rw [Btc.IsDerInt.unique hR r2, Btc.IsDerInt.unique hS s2, ← hX, varBytes_short hl]
  exact key _ (by simp [push, derSig, h2])

theorem signed_toBytes : ∀ (is : List In) (sps : List SigPub) (bs : List Bytes), is.length = sps.length →
    (∀ s ∈ sps, s.sig.length = 64 ∧ s.pub.length = 33 ∧ PlainSig s) →
    (mapAll inToBytes (List.zipWith (fun i sp => ({ i with sigPub := some sp } : TxIn)) (is.map mIn) sps) = .ok bs ↔
      ∃ us, List.Forall₂ (fun sp u => IsUnlock sp.sig sp.pub u) sps us ∧ bs = List.zipWith inWire is us)
  | [], [], bs, _, _ => by
    rw [List.map_nil, List.zipWith_nil_left]
    unfold mapAll
    constructor
    · intro h; cases h; exact ⟨[], .nil, rfl⟩
    · rintro ⟨us, hu, rfl⟩; rfl
  | i :: is, sp :: sps, bs, l, hw => by
    obtain ⟨⟨w1, w2, w3⟩, hw⟩ := List.forall_mem_cons.mp hw
    have ih := fun bs => signed_toBytes is sps bs (by simpa using l) hw
    rw [List.map_cons, List.zipWith_cons_cons]
    unfold mapAll
    have e : ∀ s, inToBytes ⟨(mIn i).txid, (mIn i).vout, some sp, (mIn i).sequence, (mIn i).lock⟩ = .ok s ↔
        ∃ u, IsUnlock sp.sig sp.pub u ∧ s = inWire i u := by
      intro s
      unfold inToBytes
      simp only
      constructor
      · intro h
        obtain ⟨r, hr, h⟩ := Res.bind_eq_ok.mp h
        cases h
        obtain ⟨u, hu, rfl⟩ := (sigPubBytes_iff sp r w1 w2 w3).mp hr
        exact ⟨u, hu, rfl⟩
      · rintro ⟨u, hu, rfl⟩
        rw [(sigPubBytes_iff sp _ w1 w2 w3).mpr ⟨u, hu, rfl⟩, Res.bind_ok]
        rfl
    constructor
    · intro h
      obtain ⟨s, hs, h⟩ := Res.bind_eq_ok.mp h
      obtain ⟨r, hr, h⟩ := Res.bind_eq_ok.mp h
      cases h
      obtain ⟨u, hu, rfl⟩ := (e s).mp hs
      obtain ⟨us, hus, rfl⟩ := (ih r).mp hr
      exact ⟨u :: us, .cons hu hus, rfl⟩
    · rintro ⟨us, hus, rfl⟩
      cases hus with
      | cons hu hus =>
        rw [(e _).mpr ⟨_, hu, rfl⟩, Res.bind_ok, (ih _).mpr ⟨_, hus, rfl⟩, Res.bind_ok]
        rfl
  | [], _ :: _, _, l, _ => by simp at l
  | _ :: _, [], _, l, _ => by simp at l

theorem verifyAndCombine_iff (H : Hashes) (E : Btc.Curve) (text : Bytes) (t : ATx) (locks : List Bytes)
    (hd : decodeRaw text = .ok (mTx t, locks)) (hne : t.ins ≠ []) (h1 : t.ins.length < 253) (h2 : t.outs.length < 253)
    (h4 : ∀ o ∈ t.outs, o.script.length < 253) (sps : List SigPub) (out : Bytes) (hw : ∀ s ∈ sps, s.sig.length = 64 ∧ s.pub.length = 33 ∧ PlainSig s) :
    verifyAndCombine H E text sps = .ok out ↔
      List.Forall₂ (Valid E) ((List.range t.ins.length).map fun k => H.hash .doubleSha256 (hashData (mTx t) k)) sps ∧
      ∃ us, List.Forall₂ (fun sp u => IsUnlock sp.sig sp.pub u) sps us ∧ out = Hex.encode (t.wire us) := by
  unfold verifyAndCombine
  rw [hd, Res.bind_ok]
  simp only
  have hl : (mTx t).ins.length = t.ins.length := by simp [mTx]
  by_cases hlen : sps.length = t.ins.length
  · rw [if_neg (by
      rw [hl]
      have : t.ins.length ≠ 0 := by simpa using hne
      omega), getHash_eq]
    have hm : (List.range t.ins.length).map (fun k => Hex.encode (H.hash .doubleSha256 (hashData (mTx t) k))) =
        ((List.range t.ins.length).map fun k => H.hash .doubleSha256 (hashData (mTx t) k)).map Hex.encode := by
      rw [List.map_map]; rfl
    rw [hm]
    generalize hhs : (List.range t.ins.length).map (fun k => H.hash .doubleSha256 (hashData (mTx t) k)) = hs
    have hhl : hs.length = t.ins.length := by rw [← hhs]; simp
    have hz : ∀ us : List Bytes, sps.length = us.length → UInt8.ofNat (List.zipWith (fun i sp => ({ i with sigPub := some sp } : TxIn)) (t.ins.map mIn) sps).length = UInt8.ofNat t.ins.length := by
      intro us _
      rw [List.length_zipWith, List.length_map, hlen, Nat.min_self]
    constructor
    · intro h
      obtain ⟨is, hi, h⟩ := Res.bind_eq_ok.mp h
      obtain ⟨b, hb, h⟩ := Res.bind_eq_ok.mp h
      cases h
      obtain ⟨g1, rfl⟩ := (signLoop_iff E hs sps _ is (by rw [hl, hhl]) (by rw [hl, hlen])).mp hi
      unfold toBytes at hb
      obtain ⟨bs, hbs, hb⟩ := Res.bind_eq_ok.mp hb
      obtain ⟨us, g3, rfl⟩ := (signed_toBytes t.ins sps bs hlen.symm hw).mp hbs
      refine ⟨g1, us, g3, ?_⟩
      cases hb
      unfold ATx.wire
      simp only [mTx]
      rw [hz us g3.length_eq, List.length_map, ofNat_cons h1, ofNat_cons h2, outs_toBytes, outs_wire h4]
      simp only [List.append_assoc]
      rfl
    · rintro ⟨g1, us, g3, rfl⟩
      rw [(signLoop_iff E hs sps (mTx t).ins _ (by rw [hl, hhl]) (by rw [hl, hlen])).mpr ⟨g1, rfl⟩, Res.bind_ok]
      unfold toBytes
      rw [show (mTx t).ins = t.ins.map mIn from rfl]
      simp only
      rw [(signed_toBytes t.ins sps _ hlen.symm hw).mpr ⟨us, g3, rfl⟩, Res.bind_ok, Res.bind_ok]
      unfold ATx.wire
      simp only [mTx]
      rw [hz us g3.length_eq, List.length_map, ofNat_cons h1, ofNat_cons h2, outs_toBytes, outs_wire h4]
      simp only [List.append_assoc]
      rfl
  · rw [if_pos (by rw [hl]; exact .inr hlen)]
    constructor
    · intro h; cases h
    · rintro ⟨h, _⟩
      have := h.length_eq
      simp at this
      exact absurd this.symm hlen

end Verif.Alien
