import Verif.Model.HyperCash
import Verif.Spec.HyperCash
import Verif.Props.BtcTx
import Verif.Lemmas.BtcSig
import Verif.Lemmas.OwPath
import Verif.Lemmas.Elastos

/-! Lemmas about `hypercashTransaction`. -/

namespace Verif.HyperCash
open Verif Verif.Spec Verif.Spec.HyperCash

/-- The hash function of the package. -/
abbrev blake (H : Hashes) : Bytes → Bytes := H.hash .blake256

/-! ### Addresses -/

/-- The hash family with the checksum of this package in place of double SHA-256, to reuse the lemma on `Btc.decodeCheck`. -/
def swap (H : Hashes) : Hashes where
  hash a d := if a = .doubleSha256 then H.hash .blake256 (H.hash .blake256 d) else H.hash a d
  size a d := by
    split
    · rename_i h; subst h; rw [H.size]; rfl
    · exact H.size a d

theorem decodeCheck_swap (H : Hashes) (a : Bytes) : decodeCheck H a = Btc.decodeCheck (swap H) a := rfl

theorem decodeCheck_iff (H : Hashes) (a h : Bytes) : (decodeCheck H a = .ok ([0x09, 0x7f], h) ∧ h.length = 20) ↔
    IsAddress (blake H) Btc.alphabet h a := by
  rw [decodeCheck_swap, Btc.decodeCheck_iff]
  unfold IsAddress IsBase58Check swap
  simp only [if_true]
  constructor
  · rintro ⟨⟨h1, h2⟩, _⟩; exact ⟨h1, h2⟩
  · rintro ⟨h1, h2⟩; exact ⟨⟨h1, h2⟩, h1⟩

/-! ### From request to transaction -/

/-- Input of the request and of the transaction. -/
def InOf (v : Vin) (i : In) : Prop :=
  Hex.decode v.txid = .ok i.txid ∧ i.txid.length = 32 ∧ i.vout = v.vout.toNat ∧ i.amount = v.amount.toNat ∧ i.height = v.height.toNat ∧
    i.blockIndex = v.blockIndex.toNat ∧ Hex.decode v.lock = .ok i.lock

/-- Output of the request and of the transaction. -/
def OutOf (H : Hashes) (v : Vout) (o : Out) : Prop :=
  o.amount = v.amount.toNat ∧ ∃ h, IsAddress (blake H) Btc.alphabet h v.address ∧ o.script = p2pkhScript h

/-- The structures of the code. -/
def mIn (i : In) : TxIn := ⟨i.txid.reverse, leBytes 4 i.vout, valueWire i, UInt8.ofNat i.lock.length :: i.lock⟩
def mOut (o : Out) : TxOut := ⟨leBytes 8 o.amount, [0, 0], UInt8.ofNat o.script.length :: o.script⟩
def mTx (t : Tx) : TxStruct := ⟨t.ins.map mIn, t.outs.map mOut, leBytes 4 t.lockTime, leBytes 4 t.expiry⟩

theorem newTxIn_iff (v : Vin) (x : TxIn) : newTxIn v = .ok x ↔ ∃ i, InOf v i ∧ x = mIn i := by
  unfold newTxIn InOf mIn valueWire
  constructor
  · intro h
    obtain ⟨t, ht, h⟩ := Res.bind_eq_ok.mp h
    split at h
    · cases h
    rename_i hl
    obtain ⟨k, hk, h⟩ := Res.bind_eq_ok.mp h
    cases h
    exact ⟨⟨t.reverse, v.vout.toNat, v.amount.toNat, v.height.toNat, v.blockIndex.toNat, k⟩,
      ⟨(BigBang.reverseHex_ok_iff _ _).mp ht, by simpa using hl, rfl, rfl, rfl, rfl, hk⟩, by simp⟩
  · rintro ⟨i, ⟨h1, h2, h3, h4, h5, h6, h7⟩, rfl⟩
    rw [(BigBang.reverseHex_ok_iff v.txid i.txid.reverse).mpr (by rw [List.reverse_reverse]; exact h1), Res.bind_ok,
      if_neg (by simpa using h2), h7, Res.bind_ok, h3, h4, h5, h6]

theorem newTxOut_iff (H : Hashes) (v : Vout) (x : TxOut) : newTxOut H v = .ok x ↔ ∃ o, OutOf H v o ∧ x = mOut o := by
  unfold newTxOut OutOf mOut
  constructor
  · intro h
    obtain ⟨⟨pre, k⟩, hd, h⟩ := Res.bind_eq_ok.mp h
    simp only at h
    split at h
    · cases h
    split at h
    · cases h
    rename_i h1 h2
    cases h
    have h2 : pre = [0x09, 0x7f] := by simpa using h2
    subst h2
    have hk : k.length = 20 := by simpa using h1
    refine ⟨⟨v.amount.toNat, p2pkhScript k⟩, ⟨rfl, k, (decodeCheck_iff H _ _).mp ⟨hd, hk⟩, rfl⟩, ?_⟩
    simp only [p2pkhScript, List.length_append, List.length_cons, List.length_nil, hk]
    rfl
  · rintro ⟨o, ⟨h1, k, hk, h2⟩, rfl⟩
    obtain ⟨hd, hl⟩ := (decodeCheck_iff H _ _).mpr hk
    rw [hd, Res.bind_ok]
    simp only
    rw [if_neg (by simp [hl]), if_neg (by simp), h1, h2]
    simp only [p2pkhScript, List.length_append, List.length_cons, List.length_nil, hl]
    rfl

theorem mapAll_iff {α β : Type} (f : α → Res β) : ∀ (l : List α) (bs : List β), mapAll f l = .ok bs ↔
    List.Forall₂ (fun x b => f x = .ok b) l bs
  | [], bs => by
    unfold mapAll
    constructor
    · intro h; cases h; exact .nil
    · intro h; cases h; rfl
  | x :: xs, bs => by
    unfold mapAll
    constructor
    · intro h
      obtain ⟨b, hb, h⟩ := Res.bind_eq_ok.mp h
      obtain ⟨r, hr, h⟩ := Res.bind_eq_ok.mp h
      cases h
      exact .cons hb ((mapAll_iff f xs r).mp hr)
    · intro h
      cases h with
      | cons h1 h2 => rw [h1, Res.bind_ok, (mapAll_iff f xs _).mpr h2, Res.bind_ok]

/-- The transaction a request describes. -/
def TxOf (H : Hashes) (ins : List Vin) (outs : List Vout) (lockTime expiry : UInt32) (t : Tx) : Prop :=
  List.Forall₂ InOf ins t.ins ∧ List.Forall₂ (OutOf H) outs t.outs ∧ t.lockTime = lockTime.toNat ∧ t.expiry = expiry.toNat

theorem newTxStruct_iff (H : Hashes) (ins : List Vin) (outs : List Vout) (lt ex : UInt32) (x : TxStruct) :
    newTxStruct H ins outs lt ex = .ok x ↔ ins ≠ [] ∧ outs ≠ [] ∧ ∃ t, TxOf H ins outs lt ex t ∧ x = mTx t := by
  unfold newTxStruct TxOf
  constructor
  · intro h
    split at h
    · cases h
    split at h
    · cases h
    rename_i h1 h2
    obtain ⟨i, hi, h⟩ := Res.bind_eq_ok.mp h
    obtain ⟨o, ho, h⟩ := Res.bind_eq_ok.mp h
    cases h
    rw [mapAll_iff] at hi ho
    obtain ⟨is, his, rfl⟩ := Elastos.forall₂_exists.mp (hi.imp fun _ _ e => (newTxIn_iff _ _).mp e)
    obtain ⟨os, hos, rfl⟩ := Elastos.forall₂_exists.mp (ho.imp fun _ _ e => (newTxOut_iff _ _ _).mp e)
    exact ⟨by simpa using h1, by simpa using h2, ⟨is, os, lt.toNat, ex.toNat⟩, ⟨his, hos, rfl, rfl⟩, rfl⟩
  · rintro ⟨h1, h2, t, ⟨hi, ho, h3, h4⟩, rfl⟩
    rw [if_neg (by simpa using h1), if_neg (by simpa using h2),
      (mapAll_iff newTxIn ins (t.ins.map mIn)).mpr ((Elastos.forall₂_exists.mpr ⟨t.ins, hi, rfl⟩).imp fun _ _ e => (newTxIn_iff _ _).mpr e),
      Res.bind_ok,
      (mapAll_iff (newTxOut H) outs (t.outs.map mOut)).mpr
        ((Elastos.forall₂_exists.mpr ⟨t.outs, ho, rfl⟩).imp fun _ _ e => (newTxOut_iff _ _ _).mpr e), Res.bind_ok, ← h3, ← h4]
    rfl

/-! ### Serialisation -/

theorem varInt_eq (n : Nat) : varInt n = compactSize n := rfl

theorem varBytes_short {b : Bytes} (h : b.length < 253) : varBytes b = UInt8.ofNat b.length :: b := by
  unfold varBytes
  rw [Btc.compactSize_small h]
  rfl

/-- Scripts short enough for a one-byte length. -/
def ShortOuts (t : Tx) : Prop := ∀ o ∈ t.outs, o.script.length < 253

theorem shortOuts_of {H : Hashes} {ins outs lt ex t} (h : TxOf H ins outs lt ex t) : ShortOuts t := by
  intro o ho
  obtain ⟨v, _, _, k, hk, e⟩ := Elastos.forall₂_mem h.2.1 o ho
  rw [e]
  simp [p2pkhScript, hk.1]

theorem prefixBytes_eq (t : Tx) (h : ShortOuts t) (ser : Nat) : (mTx t).prefixBytes ser = t.body ser := by
  unfold TxStruct.prefixBytes Tx.body mTx
  have e1 : (t.ins.map mIn).flatMap TxIn.toBytes = t.ins.flatMap inWire := by
    rw [List.flatMap_map]; rfl
  have e2 : (t.outs.map mOut).flatMap TxOut.toBytes = t.outs.flatMap outWire := by
    rw [List.flatMap_map]
    refine List.flatMap_congr fun o ho => ?_
    unfold outWire
    rw [varBytes_short (h o ho)]
    rfl
  simp only [e1, e2, varInt_eq, List.length_map]
  rfl

theorem witnessLoop_eq (k : Nat) (L : Bytes) : ∀ (xs : List TxIn) (i : Nat), (∀ m y, xs[m]? = some y → i + m = k → y.lockScript = L) →
    witnessLoop k i xs = (List.range' i xs.length).flatMap fun j => if j = k then L else [0]
  | [], _, _ => rfl
  | x :: xs, i, h => by
    unfold witnessLoop
    rw [List.length_cons, List.range'_succ, List.flatMap_cons, witnessLoop_eq k L xs (i + 1) fun m y hm e => h (m + 1) y hm (by omega)]
    by_cases hi : i = k
    · rw [if_pos hi, if_pos hi, h 0 x rfl (by omega)]
    · rw [if_neg hi, if_neg hi]

theorem witnessParts_eq (xs : List TxIn) (k : Nat) (x : TxIn) (hx : xs[k]? = some x) :
    witnessLoop k 0 xs = witnessParts xs.length k x.lockScript := by
  rw [witnessLoop_eq k x.lockScript xs 0 (by
    intro m y hm e
    rw [show m = k from by omega] at hm
    rw [hm] at hx
    rw [Option.some.inj hx])]
  unfold witnessParts
  rw [List.range_eq_range']

theorem flatMap_const {α : Type} (l : List α) (f : α → Bytes) (h : ∀ a ∈ l, f a = [0]) : (l.flatMap f).length = l.length := by
  induction l with
  | nil => rfl
  | cons a l ih =>
    obtain ⟨ha, h⟩ := List.forall_mem_cons.mp h
    rw [List.flatMap_cons, List.length_append, ha, ih h, List.length_cons, List.length_cons, List.length_nil]
    omega

theorem range'_parts (k : Nat) (L : Bytes) : ∀ n i, i ≤ k → k < i + n →
    ((List.range' i n).flatMap fun j => if j = k then L else [0]).length = n - 1 + L.length
  | 0, i, h1, h2 => by omega
  | n + 1, i, h1, h2 => by
    rw [List.range'_succ, List.flatMap_cons, List.length_append]
    by_cases h : i = k
    · rw [if_pos h, flatMap_const _ _ (fun a ha => by
        rw [List.mem_range'_1] at ha
        rw [if_neg (by omega)]), List.length_range']
      omega
    · rw [if_neg h, range'_parts k L n (i + 1) (by omega) (by omega)]
      simp only [List.length_cons, List.length_nil]
      omega

theorem parts_length {n k : Nat} (L : Bytes) (h : k < n) : (witnessParts n k L).length = n - 1 + L.length := by
  unfold witnessParts
  rw [List.range_eq_range', range'_parts k L n 0 (by omega) (by omega)]

theorem mapIdx_parts (t : List In) (k : Nat) (lock : Bytes) (h : (t[k]?).map (·.lock) = some lock) :
    (t.mapIdx fun j i => if j = k then varBytes i.lock else [0]).flatten = witnessParts t.length k (varBytes lock) := by
  have gen : ∀ (t : List In) (i : Nat), (∀ m y, t[m]? = some y → i + m = k → y.lock = lock) →
      (t.mapIdx fun j x => if i + j = k then varBytes x.lock else [0]).flatten =
        (List.range' i t.length).flatMap fun j => if j = k then varBytes lock else [0] := by
    intro t
    induction t with
    | nil => intro i _; rfl
    | cons x xs ih =>
      intro i h
      rw [List.mapIdx_cons, List.flatten_cons, List.length_cons, List.range'_succ, List.flatMap_cons, ← ih (i + 1) fun m y hm e => h (m + 1) y hm (by omega)]
      simp only [Nat.add_zero]
      have e : ∀ j, i + (j + 1) = i + 1 + j := fun j => by omega
      rw [show (fun j (x : In) => if i + (j + 1) = k then varBytes x.lock else [0]) = (fun j x => if i + 1 + j = k then varBytes x.lock else [0]) from by
        funext j x; rw [e]]
      by_cases hi : i = k
      · rw [if_pos hi, if_pos hi, h 0 x rfl (by omega)]
      · rw [if_neg hi, if_neg hi]
  have := gen t 0 (by
    intro m y hm e
    rw [show m = k from by omega] at hm
    rw [hm] at h
    exact Option.some.inj h)
  simp only [Nat.zero_add] at this
  rw [this]
  unfold witnessParts
  rw [List.range_eq_range']

/-- The bytes of the witness that input `k` signs. -/
def wit (t : TxStruct) (k : Nat) : Bytes := leBytes 2 1 ++ leBytes 2 3 ++ varInt t.ins.length ++ witnessLoop k 0 t.ins

/-- The hash that input `k` signs. -/
def hk (H : Hashes) (t : TxStruct) (k : Nat) : Bytes := blake H (leBytes 4 1 ++ blake H (t.prefixBytes 1) ++ blake H (wit t k))

theorem getHash_eq (H : Hashes) (t : TxStruct) {k : Nat} (h : k < t.ins.length) : t.getHash H k = .ok (hk H t k) := by
  unfold TxStruct.getHash TxStruct.witnessBytes
  rw [if_neg (by omega)]
  rfl

theorem witnessLoop_map (t : List In) (h : ∀ i ∈ t, i.lock.length < 253) (k i : Nat) :
    witnessLoop k i (t.map mIn) = (t.mapIdx fun j x => if i + j = k then varBytes x.lock else [0]).flatten := by
  induction t generalizing i with
  | nil => rfl
  | cons x xs ih =>
    obtain ⟨hx, h⟩ := List.forall_mem_cons.mp h
    rw [List.map_cons]
    unfold witnessLoop
    rw [ih h, List.mapIdx_cons, List.flatten_cons, varBytes_short hx]
    simp only [Nat.add_zero, Nat.add_assoc, Nat.add_comm 1]
    rfl

theorem hk_eq (H : Hashes) (t : Tx) (ho : ShortOuts t) (hi : ∀ i ∈ t.ins, i.lock.length < 253) (k : Nat) :
    hk H (mTx t) k = t.sigHash (blake H) k := by
  unfold hk Tx.sigHash
  rw [prefixBytes_eq t ho]
  have : wit (mTx t) k = t.witnessSigning k := by
    unfold wit Tx.witnessSigning mTx
    rw [witnessLoop_map t.ins hi, List.length_map, varInt_eq]
    simp only [Nat.zero_add]
    rfl
  rw [this]

/-! ### The text -/

/-- The scripts of one input in the text. -/
def piece (x : TxIn) : Bytes := Hex.encode x.lockScript ++ 0x2f :: Hex.encode x.sigScript

theorem hashLoop_eq (H : Hashes) (t : TxStruct) : ∀ (xs : List TxIn) (i : Nat) (text : Bytes) (hs : List Bytes), i + xs.length ≤ t.ins.length →
    hashLoop H t i xs text hs = .ok (text ++ xs.flatMap (fun x => 0x3a :: piece x), hs ++ (List.range' i xs.length).map fun k => Hex.encode (hk H t k))
  | [], i, text, hs, _ => by simp [hashLoop]
  | x :: xs, i, text, hs, h => by
    simp only [List.length_cons] at h
    unfold hashLoop
    rw [getHash_eq H t (by omega), Res.bind_ok, hashLoop_eq H t xs (i + 1) _ _ (by omega), List.length_cons, List.range'_succ]
    simp [piece]

theorem hex_mem (b : Bytes) : ∀ c ∈ Hex.encode b, c ≠ 0x3a ∧ c ≠ 0x2f := by
  induction b with
  | nil => simp [Hex.encode]
  | cons x xs ih =>
    have h1 : Hex.digit (x / 16) ≠ 0x3a ∧ Hex.digit (x / 16) ≠ 0x2f := by
      revert x; apply Hex.u8_forall; decide +kernel
    have h2 : Hex.digit (x % 16) ≠ 0x3a ∧ Hex.digit (x % 16) ≠ 0x2f := by
      clear h1; revert x; apply Hex.u8_forall; decide +kernel
    unfold Hex.encode
    exact List.forall_mem_cons.mpr ⟨h1, List.forall_mem_cons.mpr ⟨h2, ih⟩⟩

theorem piece_colon (x : TxIn) : (0x3a : UInt8) ∉ piece x := by
  unfold piece
  intro h
  rcases List.mem_append.mp h with h | h
  · exact (hex_mem _ _ h).1 rfl
  · rcases List.mem_cons.mp h with h | h
    · exact absurd h (by decide)
    · exact (hex_mem _ _ h).1 rfl

theorem split_pieces : ∀ (xs : List TxIn) (a : Bytes), (0x3a : UInt8) ∉ a →
    OwKeychain.splitOn 0x3a (a ++ xs.flatMap fun x => 0x3a :: piece x) = a :: xs.map piece
  | [], a, h => by rw [List.flatMap_nil, List.append_nil, OwKeychain.splitOn_none _ _ h]; rfl
  | x :: xs, a, h => by
    rw [List.flatMap_cons, List.cons_append, OwKeychain.splitOn_append _ _ h, split_pieces xs _ (piece_colon x)]
    rfl

theorem split_text (raw : Bytes) (xs : List TxIn) :
    OwKeychain.splitOn 0x3a (Hex.encode raw ++ xs.flatMap fun x => 0x3a :: piece x) = Hex.encode raw :: xs.map piece :=
  split_pieces xs _ fun h => (hex_mem _ _ h).1 rfl

theorem split_piece (x : TxIn) : OwKeychain.splitOn 0x2f (piece x) = [Hex.encode x.lockScript, Hex.encode x.sigScript] := by
  unfold piece
  rw [OwKeychain.splitOn_append _ _ fun h => (hex_mem _ _ h).2 rfl, OwKeychain.splitOn_none _ _ fun h => (hex_mem _ _ h).2 rfl]

/-! ### Combining -/

theorem encodeToScript_iff (sp : SigPub) (e : Bytes) (h1 : sp.sig.length = 64) (h2 : sp.pub.length = 33) : encodeToScript sp = .ok e ↔
    beNat (sp.sig.take 32) ≠ 0 ∧ beNat (sp.sig.drop 32) ≠ 0 ∧ ∃ u, IsUnlock sp.sig sp.pub u ∧ e = varBytes u := by
  unfold encodeToScript Btc.encodeSigPub Btc.encodeSig
  have lr : (sp.sig.take 32).length = 32 := by simp [h1]
  have ls : (sp.sig.drop 32).length = 32 := by simp [h1]
  rw [slice_ok (by omega) (by omega)]
  simp only [Res.bind_ok, List.drop_zero]
  by_cases hr : beNat (sp.sig.take 32) = 0
  · rw [Btc.derBody_zero _ lr hr]
    constructor
    · intro h; cases h
    · rintro ⟨h, _⟩; exact absurd hr h
  by_cases hs : beNat (sp.sig.drop 32) = 0
  · obtain ⟨R, h1, _⟩ := Btc.derBody_spec _ lr hr
    rw [h1, Btc.derBody_zero _ ls hs]
    constructor
    · intro h; cases h
    · rintro ⟨_, h, _⟩; exact absurd hs h
  obtain ⟨R, r1, r2, r3⟩ := Btc.derBody_spec _ lr hr
  obtain ⟨S, s1, s2, s3⟩ := Btc.derBody_spec _ ls hs
  rw [r1, s1]
  simp only [Res.bind_ok]
  have key : ∀ X, X = push (derSig R S ++ [1]) ++ push sp.pub → (Res.ok (UInt8.ofNat X.length :: X) = Res.ok e ↔
      beNat (sp.sig.take 32) ≠ 0 ∧ beNat (sp.sig.drop 32) ≠ 0 ∧ ∃ u, IsUnlock sp.sig sp.pub u ∧ e = varBytes u) := by
    intro X hX
    have hl : X.length < 253 := by rw [hX]; simp [push, derSig, h2]; omega
    constructor
    · intro h
      refine ⟨hr, hs, X, ⟨R, S, r2, s2, hX⟩, ?_⟩
      rw [varBytes_short hl]
      exact (Res.ok.inj h).symm
    · rintro ⟨_, _, u, ⟨R', S', hR, hS, rfl⟩, rfl⟩
      rw [Btc.IsDerInt.unique hR r2, Btc.IsDerInt.unique hS s2, ← hX, varBytes_short hl]
  exact key _ (by simp [push, derSig])

/-- A signature accepted for a hash. -/
def Good (E : Btc.Curve) (hash : Bytes) (sp : SigPub) : Prop :=
  ∃ p0 p, E.decompress sp.pub = p0 :: p ∧ E.verify p hash sp.sig = true ∧ beNat (sp.sig.take 32) ≠ 0 ∧ beNat (sp.sig.drop 32) ≠ 0

theorem combineLoop_iff (H : Hashes) (E : Btc.Curve) (t : TxStruct) : ∀ (xs : List TxIn) (sps : List SigPub) (i : Nat) (ret out : Bytes),
    (∀ m x, xs[m]? = some x → t.ins[i + m]? = some x) → xs.length = sps.length → (∀ s ∈ sps, s.sig.length = 64 ∧ s.pub.length = 33) →
    (combineLoop H E t.ins.length (blake H (t.prefixBytes 1)) i (xs.map piece) sps ret = .ok (some out) ↔
      List.Forall₂ (Good E) ((List.range' i xs.length).map (hk H t)) sps ∧
      ∃ us, List.Forall₂ (fun sp u => IsUnlock sp.sig sp.pub u) sps us ∧
        out = ret ++ (List.zipWith (fun x u => x.sigScript ++ varBytes u) xs us).flatten)
  | [], [], i, ret, out, _, _, _ => by
    unfold combineLoop
    simp only [List.length_nil, List.range'_zero, List.map_nil, List.Forall₂.nil, true_and]
    constructor
    · intro h; cases h; exact ⟨[], .nil, by simp⟩
    · rintro ⟨us, hu, rfl⟩; simp
  | x :: xs, sp :: sps, i, ret, out, hx, hl, hw => by
    obtain ⟨⟨w1, w2⟩, hw⟩ := List.forall_mem_cons.mp hw
    have hi := hx 0 x rfl
    have hw' : leBytes 2 1 ++ leBytes 2 3 ++ varInt t.ins.length ++ witnessParts t.ins.length i x.lockScript = wit t i := by
      unfold wit
      rw [witnessParts_eq t.ins i x hi]
    rw [List.map_cons]
    unfold combineLoop
    rw [split_piece]
    simp only [Hex.decode_encode]
    rw [hw', List.length_cons, List.range'_succ, List.map_cons]
    have hhk : H.hash .blake256 (leBytes 4 1 ++ blake H (t.prefixBytes 1) ++ H.hash .blake256 (wit t i)) = hk H t i := rfl
    rw [hhk]
    have ih := fun ret => combineLoop_iff H E t xs sps (i + 1) ret out (fun m y hm => by
      have := hx (m + 1) y hm
      rwa [show i + 1 + m = i + (m + 1) from by omega]) (by simpa using hl) hw
    match hd : E.decompress sp.pub with
    | [] =>
      constructor
      · intro h; cases h
      · rintro ⟨h, _⟩
        cases h with
        | cons h _ => obtain ⟨p0, p, e, _⟩ := h; rw [hd] at e; cases e
    | p0 :: p =>
      rw [slice_ok (by simp) (le_refl _)]
      simp only [List.take_length, List.drop_succ_cons, List.drop_zero, Res.bind_ok]
      by_cases hv : E.verify p (hk H t i) sp.sig = true
      · rw [if_pos hv]
        constructor
        · intro h
          obtain ⟨e, he, h⟩ := Res.bind_eq_ok.mp h
          obtain ⟨e1, e2, u, hu, rfl⟩ := (encodeToScript_iff sp e w1 w2).mp he
          obtain ⟨h1, us, h2, rfl⟩ := (ih _).mp h
          exact ⟨.cons ⟨p0, p, hd, hv, e1, e2⟩ h1, u :: us, .cons hu h2, by simp⟩
        · rintro ⟨h, us, hus, rfl⟩
          cases h with
          | cons g h =>
            obtain ⟨_, _, _, _, g1, g2⟩ := g
            cases hus with
            | cons hu hus =>
              rw [(encodeToScript_iff sp _ w1 w2).mpr ⟨g1, g2, _, hu, rfl⟩, Res.bind_ok]
              exact (ih _).mpr ⟨h, _, hus, by simp⟩
      · rw [if_neg hv]
        constructor
        · intro h; cases h
        · rintro ⟨h, _⟩
          cases h with
          | cons g h =>
            obtain ⟨q0, q, g1, g2, _⟩ := g
            rw [hd] at g1
            cases g1
            exact absurd g2 hv
  | [], _ :: _, _, _, _, _, h, _ => by simp at h
  | _ :: _, [], _, _, _, _, h, _ => by simp at h

theorem prefix_set (t : TxStruct) : index (t.prefixBytes 0) 2 = .ok 0 ∧ index (t.prefixBytes 0) 3 = .ok 0 ∧
    ((t.prefixBytes 0).set 2 1).set 3 0 = t.prefixBytes 1 := by
  unfold TxStruct.prefixBytes
  have e1 : leBytes 2 1 = [1, 0] := by decide
  have e2 : leBytes 2 0 = [0, 0] := by decide
  simp only [e1, e2, List.append_assoc, List.cons_append, List.nil_append]
  refine ⟨rfl, rfl, rfl⟩

end Verif.HyperCash
