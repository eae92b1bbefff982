import Verif.Model.Vollar
import Verif.Spec.Verge
import Verif.Lemmas.HyperCash

/-! Lemmas about `vergeTransaction` and `vollarTransaction`. -/

namespace Verif.Verge
open Verif Verif.Spec Verif.Spec.Verge
open Verif.HyperCash (mapAll mapAll_iff varBytes_short)

/-! ### Hex texts and splitting -/

theorem value_colon : Hex.value 0x3a = none := by decide

theorem decode_no_colon : ∀ (s b : Bytes), Hex.decode s = .ok b → (0x3a : UInt8) ∉ s
  | [], _, _ => by simp
  | [_], _, h => by simp [Hex.decode] at h
  | x :: y :: s, b, h => by
    unfold Hex.decode at h
    split at h
    · rename_i u v hx hy
      split at h
      · rename_i bs hr
        intro hc
        rcases List.mem_cons.mp hc with rfl | hc
        · rw [value_colon] at hx; cases hx
        · rcases List.mem_cons.mp hc with rfl | hc
          · rw [value_colon] at hy; cases hy
          · exact decode_no_colon s bs hr hc
      · cases h
      · cases h
    · cases h

theorem split_locks : ∀ (vs : List Vin) (a : Bytes), (0x3a : UInt8) ∉ a → (∀ v ∈ vs, (0x3a : UInt8) ∉ v.lock) →
    OwKeychain.splitOn 0x3a (a ++ vs.flatMap fun v => 0x3a :: v.lock) = a :: vs.map (·.lock)
  | [], a, h, _ => by rw [List.flatMap_nil, List.append_nil, OwKeychain.splitOn_none _ _ h]; rfl
  | v :: vs, a, h, hv => by
    obtain ⟨h1, h2⟩ := List.forall_mem_cons.mp hv
    rw [List.flatMap_cons, List.cons_append, OwKeychain.splitOn_append _ _ h, split_locks vs _ h1 h2]
    rfl

/-! ### Addresses -/

theorem decodeCheck_iff (H : Hashes) (addr : Bytes) (p : UInt8) (h : Bytes) :
    decodeCheck H addr = .ok (p, h) ↔ IsBase58Check H Btc.alphabet [p] h addr := by
  unfold decodeCheck
  constructor
  · intro hd
    obtain ⟨ret, hret, hd⟩ := Res.bind_eq_ok.mp hd
    split at hd
    · cases hd
    rename_i h4
    split at hd
    · cases hd
    rename_i hck
    simp only [not_not] at hck
    obtain ⟨q, hq, hd⟩ := Res.bind_eq_ok.mp hd
    obtain ⟨r, hr, hd⟩ := Res.bind_eq_ok.mp hd
    cases hd
    match ret, hret with
    | [], hret => simp [index] at hq
    | x :: xs, hret =>
      simp only [index, List.getElem?_cons_zero, Res.ok.injEq] at hq
      subst hq
      unfold slice at hr
      split at hr
      · cases hr
        rename_i hle
        have e1 : [x] ++ ((x :: xs).take ((x :: xs).length - 4)).drop 1 = (x :: xs).take ((x :: xs).length - 4) := by
          have : (x :: xs).length - 4 = ((x :: xs).length - 5) + 1 := by omega
          rw [this, List.take_succ_cons]
          rfl
        unfold IsBase58Check
        rw [e1, hck, List.take_append_drop]
        exact (Addr.encode_iff Btc.alphabet_ok _ _).mp (C02_base58_canonical _ Btc.alphabet_ok _ _ hret)
      · cases hr
  · intro hb
    unfold IsBase58Check at hb
    obtain ⟨t, h1, h2, h3⟩ := C01_base58_roundtrip _ Btc.alphabet_ok ([p] ++ h ++ (H.hash .doubleSha256 ([p] ++ h)).take 4)
    have ht : t = addr := by
      have := (Addr.encode_iff Btc.alphabet_ok _ _).mpr hb
      rw [h1] at this
      exact Res.ok.inj this
    rw [ht] at h3
    have hck : ((H.hash .doubleSha256 ([p] ++ h)).take 4).length = 4 := by
      rw [List.length_take, H.size]; rfl
    rw [h3, Res.bind_ok]
    generalize hck' : (H.hash .doubleSha256 ([p] ++ h)).take 4 = ck at *
    have t4 : ([p] ++ h ++ ck).length - 4 = ([p] ++ h).length := by simp; omega
    rw [t4, List.take_left, List.drop_left, if_neg (by simp; omega), if_neg (not_not.mpr hck')]
    rw [slice_ok (by simp) (by simp), List.take_left]
    rfl

/-! ### From request to transaction -/

/-- Input of the request and of the transaction. -/
def InOf (v : Vin) (i : In) : Prop :=
  Hex.decode v.txid = .ok i.txid ∧ i.vout = v.vout.toNat ∧ Hex.decode v.lock = .ok i.lock

/-- The structures of the code. -/
def mIn (i : In) : TxIn := ⟨i.txid.reverse, leBytes 4 i.vout, none, [0xff, 0xff, 0xff, 0xff], push i.lock⟩
def mOut (o : Out) : TxOut := ⟨leBytes 8 o.amount, push o.script⟩
def mTx (t : Tx) : TxStruct := ⟨[1, 0, 0, 0], leBytes 4 t.time, t.ins.map mIn, t.outs.map mOut, leBytes 4 t.lockTime⟩

theorem newTxIn_iff (v : Vin) (x : TxIn) : newTxIn v = .ok x ↔ ∃ i, InOf v i ∧ x = mIn i := by
  unfold newTxIn InOf mIn push
  constructor
  · intro h
    obtain ⟨t, ht, h⟩ := Res.bind_eq_ok.mp h
    obtain ⟨k, hk, h⟩ := Res.bind_eq_ok.mp h
    cases h
    exact ⟨⟨t.reverse, v.vout.toNat, k⟩, ⟨(BigBang.reverseHex_ok_iff _ _).mp ht, rfl, hk⟩, by simp⟩
  · rintro ⟨i, ⟨h1, h2, h3⟩, rfl⟩
    rw [(BigBang.reverseHex_ok_iff v.txid i.txid.reverse).mpr (by rw [List.reverse_reverse]; exact h1), Res.bind_ok, h3, Res.bind_ok, h2]

/-- The key of an output is a standard address of 20 bytes. -/
def Std (H : Hashes) (p q address : Bytes) : Prop :=
  ∃ h : Bytes, h.length = 20 ∧ (IsBase58Check H Btc.alphabet p h address ∨ IsBase58Check H Btc.alphabet q h address)

/-- Output of the request and of the transaction. -/
def OutOf (H : Hashes) (p q : Bytes) (v : Vout) (o : Out) : Prop :=
  o.amount = v.amount.toNat ∧ IsDest H Btc.alphabet p q v.address o.script

theorem OutOf.std {H : Hashes} {p q : Bytes} {v : Vout} {o : Out} (h : OutOf H p q v o) : Std H p q v.address := by
  obtain ⟨_, k, hk, h | h⟩ := h
  · exact ⟨k, hk, .inl h.1⟩
  · exact ⟨k, hk, .inr h.1⟩

theorem base58Check_inj {H : Hashes} {p q : UInt8} {h k a : Bytes} (h1 : IsBase58Check H Btc.alphabet [p] h a)
    (h2 : IsBase58Check H Btc.alphabet [q] k a) : p = q ∧ h = k := by
  have e1 := (decodeCheck_iff H a p h).mpr h1
  rw [(decodeCheck_iff H a q k).mpr h2] at e1
  cases e1
  exact ⟨rfl, rfl⟩

theorem newTxOut_iff (H : Hashes) (v : Vout) (x : TxOut) (hs : Std H [0x1e] [0x21] v.address) :
    newTxOut H v = .ok x ↔ ∃ o, OutOf H [0x1e] [0x21] v o ∧ x = mOut o := by
  unfold newTxOut OutOf mOut
  obtain ⟨h, hl, hb | hb⟩ := hs
  · rw [(decodeCheck_iff H _ _ _).mpr hb, Res.bind_ok]
    simp only [if_true]
    constructor
    · intro e
      cases e
      refine ⟨⟨v.amount.toNat, p2pkhScript h⟩, ⟨rfl, h, hl, .inl ⟨hb, rfl⟩⟩, ?_⟩
      simp only [push, p2pkhScript, List.length_append, List.length_cons, List.length_nil, hl]
      rfl
    · rintro ⟨o, ⟨h1, k, hk, ⟨h2, h3⟩ | ⟨h2, h3⟩⟩, rfl⟩
      · obtain ⟨_, rfl⟩ := base58Check_inj hb h2
        rw [h1, h3]
        simp only [push, p2pkhScript, List.length_append, List.length_cons, List.length_nil, hl]
        rfl
      · exact absurd (base58Check_inj hb h2).1 (by decide)
  · rw [(decodeCheck_iff H _ _ _).mpr hb, Res.bind_ok]
    simp only [if_true]
    rw [if_neg (by decide)]
    constructor
    · intro e
      cases e
      refine ⟨⟨v.amount.toNat, p2shScript h⟩, ⟨rfl, h, hl, .inr ⟨hb, rfl⟩⟩, ?_⟩
      simp only [push, p2shScript, List.length_append, List.length_cons, List.length_nil, hl]
      rfl
    · rintro ⟨o, ⟨h1, k, hk, ⟨h2, h3⟩ | ⟨h2, h3⟩⟩, rfl⟩
      · exact absurd (base58Check_inj hb h2).1 (by decide)
      · obtain ⟨_, rfl⟩ := base58Check_inj hb h2
        rw [h1, h3]
        simp only [push, p2shScript, List.length_append, List.length_cons, List.length_nil, hl]
        rfl

theorem forall₂_congr_mem {α β : Type} {R S : α → β → Prop} : ∀ {l : List α} {m : List β}, (∀ a ∈ l, ∀ b, R a b ↔ S a b) →
    (List.Forall₂ R l m ↔ List.Forall₂ S l m)
  | [], _, _ => by constructor <;> (intro h; cases h; exact .nil)
  | a :: l, [], _ => by constructor <;> (intro h; cases h)
  | a :: l, b :: m, h => by
    obtain ⟨h1, h2⟩ := List.forall_mem_cons.mp h
    rw [List.forall₂_cons, List.forall₂_cons, h1 b, forall₂_congr_mem h2]

theorem newIns_iff (ins : List Vin) (xs : List TxIn) : mapAll newTxIn ins = .ok xs ↔ ∃ is, List.Forall₂ InOf ins is ∧ xs = is.map mIn := by
  rw [mapAll_iff, forall₂_congr_mem fun a _ b => newTxIn_iff a b, Elastos.forall₂_exists]

theorem newOuts_iff (H : Hashes) (outs : List Vout) (xs : List TxOut) (hs : ∀ v ∈ outs, Std H [0x1e] [0x21] v.address) :
    mapAll (newTxOut H) outs = .ok xs ↔ ∃ os, List.Forall₂ (OutOf H [0x1e] [0x21]) outs os ∧ xs = os.map mOut := by
  rw [mapAll_iff, forall₂_congr_mem fun a ha b => newTxOut_iff H a b (hs a ha), Elastos.forall₂_exists]

/-- The transaction a request describes. -/
def TxOf (H : Hashes) (now : UInt32) (ins : List Vin) (outs : List Vout) (lockTime interval : UInt32) (t : Tx) : Prop :=
  t.time = (now + interval).toNat ∧ List.Forall₂ InOf ins t.ins ∧ List.Forall₂ (OutOf H [0x1e] [0x21]) outs t.outs ∧
    t.lockTime = lockTime.toNat

theorem newTxStruct_iff (H : Hashes) (now : UInt32) (ins : List Vin) (outs : List Vout) (iv lt : UInt32) (x : TxStruct)
    (hs : ∀ v ∈ outs, Std H [0x1e] [0x21] v.address) :
    newTxStruct H now ins outs iv lt = .ok x ↔ ∃ t, TxOf H now ins outs lt iv t ∧ x = mTx t := by
  unfold newTxStruct TxOf mTx
  constructor
  · intro h
    obtain ⟨i, hi, h⟩ := Res.bind_eq_ok.mp h
    obtain ⟨o, ho, h⟩ := Res.bind_eq_ok.mp h
    cases h
    obtain ⟨is, his, rfl⟩ := (newIns_iff _ _).mp hi
    obtain ⟨os, hos, rfl⟩ := (newOuts_iff H _ _ hs).mp ho
    exact ⟨⟨(now + iv).toNat, is, os, lt.toNat⟩, ⟨rfl, his, hos, rfl⟩, rfl⟩
  · rintro ⟨t, ⟨h1, h2, h3, h4⟩, rfl⟩
    rw [(newIns_iff _ _).mpr ⟨_, h2, rfl⟩, Res.bind_ok, (newOuts_iff H _ _ hs).mpr ⟨_, h3, rfl⟩, Res.bind_ok, h1, h4]

/-! ### Serialisation -/

theorem mapAll_ok {α β : Type} {f : α → Res β} {g : α → β} (l : List α) (h : ∀ x ∈ l, f x = .ok (g x)) : mapAll f l = .ok (l.map g) := by
  rw [mapAll_iff]
  induction l with
  | nil => exact .nil
  | cons x l ih =>
    obtain ⟨h1, h2⟩ := List.forall_mem_cons.mp h
    exact .cons h1 (ih h2)

/-- An unsigned input on the wire. -/
def inBytes (i : In) : Bytes := i.txid.reverse ++ leBytes 4 i.vout ++ [0] ++ [0xff, 0xff, 0xff, 0xff]

theorem mIn_toBytes (i : In) : (mIn i).toBytes = .ok (inBytes i) := rfl

theorem ins_toBytes (is : List In) : mapAll TxIn.toBytes (is.map mIn) = .ok (is.map inBytes) := by
  rw [mapAll_ok (g := fun x => x.txid ++ x.vout ++ [0] ++ x.sequence)]
  · rw [List.map_map]; rfl
  · intro x hx
    obtain ⟨i, _, rfl⟩ := List.mem_map.mp hx
    rfl

/-- An output of the code on the wire. -/
def outBytes (o : Out) : Bytes := leBytes 8 o.amount ++ push o.script

theorem outs_toBytes (os : List Out) : (os.map mOut).flatMap TxOut.toBytes = os.flatMap outBytes := by
  rw [List.flatMap_map]; rfl

/-- The bytes of an unsigned transaction of the code. -/
def rawBytes (t : Tx) : Bytes :=
  [1, 0, 0, 0] ++ leBytes 4 t.time ++ UInt8.ofNat t.ins.length :: t.ins.flatMap inBytes ++ UInt8.ofNat t.outs.length :: t.outs.flatMap outBytes ++
    leBytes 4 t.lockTime

theorem mTx_toBytes (t : Tx) : (mTx t).toBytes = .ok (rawBytes t) := by
  unfold TxStruct.toBytes mTx rawBytes
  simp only
  rw [ins_toBytes, Res.bind_ok, outs_toBytes, List.length_map, List.length_map, List.flatMap]
  rfl

/-! ### Reading -/

theorem readMany_flat {α β : Type} {f : Bytes → Res (β × Bytes)} {g : α → Bytes} {k : α → β} : ∀ (l : List α),
    (∀ x ∈ l, ∀ r, f (g x ++ r) = .ok (k x, r)) → ∀ r, readMany f l.length (l.flatMap g ++ r) = .ok (l.map k, r)
  | [], _, r => rfl
  | x :: l, h, r => by
    obtain ⟨h1, h2⟩ := List.forall_mem_cons.mp h
    rw [List.length_cons]
    unfold readMany
    rw [List.flatMap_cons, List.append_assoc, h1, Res.bind_ok]
    simp only
    rw [readMany_flat l h2, Res.bind_ok]
    rfl

theorem readIn_ok (i : In) (h : i.txid.length = 32) (r : Bytes) : readIn (inBytes i ++ r) = .ok (({ mIn i with lock := [] } : TxIn), r) := by
  unfold readIn inBytes
  simp only [List.append_assoc]
  rw [Btc.takeN_append _ _ (by simpa using h), Res.bind_ok]
  simp only
  rw [Btc.takeN_append _ _ (by simp [leBytes_length]), Res.bind_ok]
  simp only [List.cons_append, List.nil_append, Btc.take1, Res.bind_ok]
  rw [if_neg (by decide)]
  rfl

theorem readScript_ok (s r : Bytes) (h : s.length < 256) : readScript (push s ++ r) = .ok (push s, r) := by
  unfold readScript push
  simp only [List.cons_append, Btc.take1, Res.bind_ok]
  rw [Btc.takeN_append _ _ (by rw [UInt8.toNat_ofNat']; omega), Res.bind_ok]

theorem readOut_ok (o : Out) (h : o.script.length < 256) (r : Bytes) : readOut (outBytes o ++ r) = .ok (mOut o, r) := by
  unfold readOut outBytes
  rw [List.append_assoc, Btc.takeN_append _ _ (by simp [leBytes_length]), Res.bind_ok]
  simp only
  rw [readScript_ok _ _ h, Res.bind_ok]
  rfl

theorem dest_length {H : Hashes} {a p q addr s : Bytes} (h : IsDest H a p q addr s) : s.length = 25 ∨ s.length = 23 := by
  obtain ⟨k, hk, ⟨_, rfl⟩ | ⟨_, rfl⟩⟩ := h <;> simp [p2pkhScript, p2shScript, hk]

theorem zipWith_withLock : ∀ {vs : List Vin} {is : List In}, List.Forall₂ InOf vs is →
    List.zipWith withLock (is.map fun i => ({ mIn i with lock := [] } : TxIn)) (vs.map (·.lock)) = is.map mIn
  | _, _, .nil => rfl
  | _, _, .cons (a := v) (b := i) h hs => by
    rw [List.map_cons, List.map_cons, List.zipWith_cons_cons, zipWith_withLock hs, List.map_cons]
    unfold withLock
    rw [Hex.decodePrefix_of_ok _ _ h.2.2]
    rfl

/-- Is the request within what the text format can carry? -/
def Fits (ins : List Vin) (outs : List Vout) : Prop :=
  ins ≠ [] ∧ ins.length < 256 ∧ outs.length < 256 ∧ ∀ v ∈ ins, v.txid.length = 64

theorem txid_length {vs : List Vin} {is : List In} (h : List.Forall₂ InOf vs is) (h64 : ∀ v ∈ vs, v.txid.length = 64) :
    ∀ i ∈ is, i.txid.length = 32 := by
  intro i hi
  obtain ⟨v, hv, h1, _⟩ := Elastos.forall₂_mem h i hi
  have := Hex.decode_length _ _ h1
  have := h64 v hv
  omega

theorem decodeRaw_ok (H : Hashes) (now : UInt32) (ins : List Vin) (outs : List Vout) (lt iv : UInt32) (t : Tx)
    (ht : TxOf H now ins outs lt iv t) (hf : Fits ins outs) :
    decodeRaw (Hex.encode (rawBytes t) ++ ins.flatMap fun v => 0x3a :: v.lock) = .ok (mTx t, ins.map (·.lock)) := by
  obtain ⟨_, hi, ho, _⟩ := ht
  obtain ⟨f1, f2, f3, f4⟩ := hf
  unfold decodeRaw
  rw [split_locks _ _ (fun h => (HyperCash.hex_mem _ _ h).1 rfl) (fun v hv => by
    obtain ⟨i, _, h⟩ := Elastos.forall₂_mem hi.flip v hv
    exact decode_no_colon _ _ h.2.2)]
  simp only
  rw [if_neg (by simpa using f1), Hex.decode_encode, Res.bind_ok]
  have e : rawBytes t = [1, 0, 0, 0] ++ (leBytes 4 t.time ++ UInt8.ofNat t.ins.length :: (t.ins.flatMap inBytes ++
      UInt8.ofNat t.outs.length :: (t.outs.flatMap outBytes ++ (leBytes 4 t.lockTime ++ [])))) := by
    simp [rawBytes]
  rw [e, Btc.takeN_append (n := 4) [1, 0, 0, 0] _ rfl, Res.bind_ok]
  simp only
  rw [Btc.takeN_append _ _ (leBytes_length _ _), Res.bind_ok]
  simp only [Btc.take1, Res.bind_ok]
  rw [show (UInt8.ofNat t.ins.length).toNat = t.ins.length from by
      rw [UInt8.toNat_ofNat']; have := hi.length_eq; omega,
    readMany_flat (k := fun i => ({ mIn i with lock := [] } : TxIn)) t.ins (fun i hm r => readIn_ok i (txid_length hi f4 i hm) r), Res.bind_ok]
  simp only [Res.bind_ok]
  rw [show (UInt8.ofNat t.outs.length).toNat = t.outs.length from by
      rw [UInt8.toNat_ofNat']; have := ho.length_eq; omega,
    readMany_flat (k := mOut) t.outs (fun o hm r => readOut_ok o (by
      obtain ⟨v, _, _, hd⟩ := Elastos.forall₂_mem ho o hm
      have := dest_length hd
      omega) r), Res.bind_ok]
  simp only
  rw [Btc.takeN_append _ _ (leBytes_length _ _), Res.bind_ok]
  simp only
  rw [if_neg (by simp), if_neg (by simp [hi.length_eq]), zipWith_withLock hi]
  rfl

/-! ### Hashes -/

theorem getHash_eq (H : Hashes) (t : Tx) :
    (mTx t).getHash H = (List.range t.ins.length).map fun k => Hex.encode (H.hash .doubleSha256 ((mTx t).hashData k)) := by
  unfold TxStruct.getHash mTx
  rw [List.length_map]

/-- Are counts and scripts short enough for one-byte lengths of the chain's format? -/
def Small (ins : List In) (outs : List Out) : Prop :=
  ins.length < 253 ∧ outs.length < 253 ∧ (∀ i ∈ ins, i.lock.length < 253) ∧ ∀ o ∈ outs, o.script.length < 253

theorem ofNat_cons {n : Nat} (h : n < 253) (b : Bytes) : UInt8.ofNat n :: b = compactSize n ++ b := by
  rw [Btc.compactSize_small h]; rfl

theorem varBytes_push {b : Bytes} (h : b.length < 253) : varBytes b = push b := varBytes_short h

theorem outs_wire {outs : List Out} (h : ∀ o ∈ outs, o.script.length < 253) : outs.flatMap outBytes = outs.flatMap outWire := by
  refine List.flatMap_congr fun o ho => ?_
  unfold outWire outBytes
  rw [varBytes_push (h o ho)]

theorem zipWith_map_self {α β γ : Type} (f : α → β → γ) (g : α → β) (l : List α) :
    List.zipWith f l (l.map g) = l.map fun a => f a (g a) := by
  induction l with
  | nil => rfl
  | cons a l ih => rw [List.map_cons, List.zipWith_cons_cons, ih, List.map_cons]

theorem zipWith_mapIdx_self {α β γ : Type} (f : α → β → γ) (g : Nat → α → β) (l : List α) :
    List.zipWith f l (l.mapIdx g) = l.mapIdx fun j a => f a (g j a) := by
  induction l generalizing g with
  | nil => rfl
  | cons a l ih => rw [List.mapIdx_cons, List.zipWith_cons_cons, ih, List.mapIdx_cons]

theorem inWire_nil (i : In) : inWire i [] = inBytes i := by
  unfold inWire inBytes
  rw [varBytes_push (by simp)]
  rfl

theorem rawBytes_eq (t : Tx) (h : Small t.ins t.outs) : rawBytes t = t.unsigned := by
  obtain ⟨h1, h2, _, h4⟩ := h
  unfold rawBytes Tx.unsigned Tx.wire
  rw [zipWith_map_self, ofNat_cons h1, ofNat_cons h2, outs_wire h4]
  simp only [inWire_nil, List.append_assoc]
  rfl

theorem hashData_eq (t : Tx) (h : Small t.ins t.outs) (k : Nat) : (mTx t).hashData k = t.preimage k := by
  obtain ⟨h1, h2, h3, h4⟩ := h
  unfold TxStruct.hashData Tx.preimage Tx.wire mTx
  simp only
  rw [List.length_map, List.length_map, ofNat_cons h1, ofNat_cons h2, outs_toBytes, outs_wire h4, zipWith_mapIdx_self]
  have e : ((t.ins.map mIn).mapIdx fun j i => i.txid ++ i.vout ++ (if j = k then i.lock else [0]) ++ i.sequence) =
      t.ins.mapIdx fun j a => inWire a (if j = k then a.lock else []) := by
    refine List.ext_getElem (by simp) fun j hj _ => ?_
    have hj' : j < t.ins.length := by simpa using hj
    simp only [List.getElem_mapIdx, List.getElem_map]
    unfold inWire mIn
    simp only
    by_cases hk : j = k
    · rw [if_pos hk, if_pos hk, varBytes_push (h3 _ (List.getElem_mem hj'))]
    · rw [if_neg hk, if_neg hk, varBytes_push (by simp)]; rfl
  rw [← e]
  simp only [List.append_assoc]
  rfl

/-! ### Combining -/

theorem toBytes_iff (sp : SigPub) (e : Bytes) (h1 : sp.sig.length = 64) (h2 : sp.pub.length = 33) : sp.toBytes = .ok e ↔
    beNat (sp.sig.take 32) ≠ 0 ∧ beNat (sp.sig.drop 32) ≠ 0 ∧ ∃ u, IsUnlock sp.sig sp.pub u ∧ e = varBytes u := by
  rw [show sp.toBytes = HyperCash.encodeToScript ⟨sp.sig, sp.pub⟩ from by
    unfold SigPub.toBytes HyperCash.encodeToScript Btc.encodeSigPub
    rw [h2]
    cases Btc.encodeSig sp.sig 1 <;> rfl]
  exact HyperCash.encodeToScript_iff ⟨sp.sig, sp.pub⟩ e h1 h2

/-- A signature valid for a hash. -/
def Valid (E : Btc.Curve) (hash : Bytes) (sp : SigPub) : Prop :=
  ∃ p0 p, E.decompress sp.pub = p0 :: p ∧ E.verify p hash sp.sig = true

theorem signLoop_iff (E : Btc.Curve) : ∀ (hs : List Bytes) (sps : List SigPub) (is xs : List TxIn), hs.length = is.length →
    sps.length = is.length → (signLoop E (hs.map Hex.encode) sps is = .ok xs ↔
      List.Forall₂ (Valid E) hs sps ∧ xs = List.zipWith (fun i sp => ({ i with sigPub := some sp } : TxIn)) is sps)
  | [], [], [], xs, _, _ => by
    unfold signLoop
    constructor
    · intro h; cases h; exact ⟨.nil, rfl⟩
    · rintro ⟨_, rfl⟩; rfl
  | h :: hs, sp :: sps, i :: is, xs, l1, l2 => by
    rw [List.map_cons]
    unfold signLoop
    rw [Hex.decodePrefix_encode, List.forall₂_cons, List.zipWith_cons_cons]
    match hd : E.decompress sp.pub with
    | [] =>
      constructor
      · intro h; cases h
      · rintro ⟨⟨⟨p0, p, e, _⟩, _⟩, _⟩; rw [hd] at e; cases e
    | p0 :: p =>
      rw [slice_ok (by simp) (le_refl _)]
      simp only [List.take_length, List.drop_succ_cons, List.drop_zero, Res.bind_ok]
      by_cases hv : E.verify p h sp.sig = true
      · rw [if_pos hv]
        constructor
        · intro h
          obtain ⟨r, hr, h⟩ := Res.bind_eq_ok.mp h
          cases h
          obtain ⟨g1, rfl⟩ := (signLoop_iff E hs sps is r (by simpa using l1) (by simpa using l2)).mp hr
          exact ⟨⟨⟨p0, p, hd, hv⟩, g1⟩, rfl⟩
        · rintro ⟨⟨_, g1⟩, rfl⟩
          rw [(signLoop_iff E hs sps is _ (by simpa using l1) (by simpa using l2)).mpr ⟨g1, rfl⟩, Res.bind_ok]
      · rw [if_neg hv]
        constructor
        · intro h; cases h
        · rintro ⟨⟨⟨q0, q, e, g⟩, _⟩, _⟩
          rw [hd] at e
          cases e
          exact absurd g hv
  | [], _ :: _, _, _, l1, l2 => by simp at l1 l2; omega
  | [], [], _ :: _, _, l1, l2 => by simp at l1
  | _ :: _, [], _, _, l1, l2 => by simp at l1 l2; omega
  | _ :: _, _ :: _, [], _, l1, l2 => by simp at l1

/-- Neither half of the signature is zero. -/
def NonZero (sp : SigPub) : Prop := beNat (sp.sig.take 32) ≠ 0 ∧ beNat (sp.sig.drop 32) ≠ 0

theorem signed_toBytes : ∀ (is : List In) (sps : List SigPub) (bs : List Bytes), is.length = sps.length →
    (∀ s ∈ sps, s.sig.length = 64 ∧ s.pub.length = 33) →
    (mapAll TxIn.toBytes (List.zipWith (fun i sp => ({ i with sigPub := some sp } : TxIn)) (is.map mIn) sps) = .ok bs ↔
      (∀ s ∈ sps, NonZero s) ∧ ∃ us, List.Forall₂ (fun sp u => IsUnlock sp.sig sp.pub u) sps us ∧ bs = List.zipWith inWire is us)
  | [], [], bs, _, _ => by
    rw [List.map_nil, List.zipWith_nil_left]
    unfold mapAll
    constructor
    · intro h; cases h; exact ⟨by simp, [], .nil, rfl⟩
    · rintro ⟨_, us, hu, rfl⟩; rfl
  | i :: is, sp :: sps, bs, l, hw => by
    obtain ⟨⟨w1, w2⟩, hw⟩ := List.forall_mem_cons.mp hw
    have ih := fun bs => signed_toBytes is sps bs (by simpa using l) hw
    rw [List.map_cons, List.zipWith_cons_cons]
    unfold mapAll
    have e : ∀ s, TxIn.toBytes ⟨(mIn i).txid, (mIn i).vout, some sp, (mIn i).sequence, (mIn i).lock⟩ = .ok s ↔
        NonZero sp ∧ ∃ u, IsUnlock sp.sig sp.pub u ∧ s = inWire i u := by
      intro s
      unfold TxIn.toBytes TxIn.scriptBytes
      simp only
      constructor
      · intro h
        obtain ⟨r, hr, h⟩ := Res.bind_eq_ok.mp h
        cases h
        obtain ⟨g1, g2, u, hu, rfl⟩ := (toBytes_iff sp r w1 w2).mp hr
        exact ⟨⟨g1, g2⟩, u, hu, rfl⟩
      · rintro ⟨⟨g1, g2⟩, u, hu, rfl⟩
        rw [(toBytes_iff sp _ w1 w2).mpr ⟨g1, g2, u, hu, rfl⟩, Res.bind_ok]
        rfl
    constructor
    · intro h
      obtain ⟨s, hs, h⟩ := Res.bind_eq_ok.mp h
      obtain ⟨r, hr, h⟩ := Res.bind_eq_ok.mp h
      cases h
      obtain ⟨n, u, hu, rfl⟩ := (e s).mp hs
      obtain ⟨n', us, hus, rfl⟩ := (ih r).mp hr
      exact ⟨List.forall_mem_cons.mpr ⟨n, n'⟩, u :: us, .cons hu hus, rfl⟩
    · rintro ⟨n, us, hus, rfl⟩
      obtain ⟨n, n'⟩ := List.forall_mem_cons.mp n
      cases hus with
      | cons hu hus =>
        rw [(e _).mpr ⟨n, _, hu, rfl⟩, Res.bind_ok, (ih _).mpr ⟨n', _, hus, rfl⟩, Res.bind_ok]
        rfl
  | [], _ :: _, _, l, _ => by simp at l
  | _ :: _, [], _, l, _ => by simp at l

theorem verifyAndCombine_iff (H : Hashes) (E : Btc.Curve) (text : Bytes) (t : Tx) (locks : List Bytes)
    (hd : decodeRaw text = .ok (mTx t, locks)) (hne : t.ins ≠ []) (h1 : t.ins.length < 253) (h2 : t.outs.length < 253)
    (h4 : ∀ o ∈ t.outs, o.script.length < 253) (sps : List SigPub) (out : Bytes) (hw : ∀ s ∈ sps, s.sig.length = 64 ∧ s.pub.length = 33) :
    verifyAndCombine H E text sps = .ok out ↔
      List.Forall₂ (Valid E) ((List.range t.ins.length).map fun k => H.hash .doubleSha256 ((mTx t).hashData k)) sps ∧
      (∀ s ∈ sps, NonZero s) ∧
      ∃ us, List.Forall₂ (fun sp u => IsUnlock sp.sig sp.pub u) sps us ∧ out = Hex.encode (t.wire us) := by
  unfold verifyAndCombine
  rw [hd, Res.bind_ok]
  simp only
  have hl : (mTx t).ins.length = t.ins.length := by simp [mTx]
  by_cases hlen : sps.length = t.ins.length
  · rw [if_neg (by
      rw [hl]
      have : t.ins.length ≠ 0 := by simpa using hne
      omega), getHash_eq]
    have hm : (List.range t.ins.length).map (fun k => Hex.encode (H.hash .doubleSha256 ((mTx t).hashData k))) =
        ((List.range t.ins.length).map fun k => H.hash .doubleSha256 ((mTx t).hashData k)).map Hex.encode := by
      rw [List.map_map]; rfl
    rw [hm]
    generalize hhs : (List.range t.ins.length).map (fun k => H.hash .doubleSha256 ((mTx t).hashData k)) = hs
    have hhl : hs.length = t.ins.length := by rw [← hhs]; simp
    have hz : ∀ us : List Bytes, sps.length = us.length → UInt8.ofNat (List.zipWith (fun i sp => ({ i with sigPub := some sp } : TxIn)) (t.ins.map mIn) sps).length = UInt8.ofNat t.ins.length := by
      intro us _
      rw [List.length_zipWith, List.length_map, hlen, Nat.min_self]
    constructor
    · intro h
      obtain ⟨is, hi, h⟩ := Res.bind_eq_ok.mp h
      obtain ⟨b, hb, h⟩ := Res.bind_eq_ok.mp h
      cases h
      obtain ⟨g1, rfl⟩ := (signLoop_iff E hs sps _ is (by rw [hl, hhl]) (by rw [hl, hlen])).mp hi
      unfold TxStruct.toBytes at hb
      obtain ⟨bs, hbs, hb⟩ := Res.bind_eq_ok.mp hb
      obtain ⟨g2, us, g3, rfl⟩ := (signed_toBytes t.ins sps bs hlen.symm hw).mp hbs
      refine ⟨g1, g2, us, g3, ?_⟩
      cases hb
      unfold Tx.wire
      simp only [mTx]
      rw [hz us g3.length_eq, List.length_map, ofNat_cons h1, ofNat_cons h2, outs_toBytes, outs_wire h4]
      simp only [List.append_assoc]
      rfl
    · rintro ⟨g1, g2, us, g3, rfl⟩
      rw [(signLoop_iff E hs sps (mTx t).ins _ (by rw [hl, hhl]) (by rw [hl, hlen])).mpr ⟨g1, rfl⟩, Res.bind_ok]
      unfold TxStruct.toBytes
      rw [show (mTx t).ins = t.ins.map mIn from rfl]
      simp only
      rw [(signed_toBytes t.ins sps _ hlen.symm hw).mpr ⟨g2, us, g3, rfl⟩, Res.bind_ok, Res.bind_ok]
      unfold Tx.wire
      simp only [mTx]
      rw [hz us g3.length_eq, List.length_map, ofNat_cons h1, ofNat_cons h2, outs_toBytes, outs_wire h4]
      simp only [List.append_assoc]
      rfl
  · rw [if_pos (by rw [hl]; exact .inr hlen)]
    constructor
    · intro h; cases h
    · rintro ⟨h, _⟩
      have := h.length_eq
      simp at this
      exact absurd this.symm hlen

end Verif.Verge
