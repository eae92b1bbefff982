import Verif.Model.Fiii
import Verif.Spec.Fiii
import Verif.Props.Cosmos
import Verif.Lemmas.Verge

/-! Lemmas about `fiiiTransaction`. -/

namespace Verif.Fiii
open Verif Verif.Spec Verif.Spec.Fiii Verif.Json
open Verif.Cosmos (Slice sliceJson)

/-! ### Addresses and texts -/

theorem prefixLoop_iff : ∀ (p r : Bytes), prefixLoop p r = .ok () ↔ ∃ s, r = p ++ s
  | [], r => by simp [prefixLoop]
  | p :: ps, [] => by simp [prefixLoop]
  | p :: ps, r :: rs => by
    unfold prefixLoop
    split
    · rename_i h
      constructor
      · intro h; cases h
      · rintro ⟨s, hs⟩
        exact absurd (List.cons.inj hs).1.symm h
    · rename_i h
      rw [not_not] at h
      rw [prefixLoop_iff ps rs, h]
      simp

theorem decodeCheck_iff (H : Hashes) (addr pre h : Bytes) :
    decodeCheck H addr pre = .ok h ↔ IsBase58Check H Btc.alphabet pre h addr ∧ h.length = 20 := by
  unfold decodeCheck
  constructor
  · intro hd
    obtain ⟨ret, hret, hd⟩ := Res.bind_eq_ok.mp hd
    split at hd
    · cases hd
    rename_i h4
    split at hd
    · cases hd
    rename_i hck
    simp only [not_not] at hck
    obtain ⟨_, hp, hd⟩ := Res.bind_eq_ok.mp hd
    obtain ⟨s, rfl⟩ := (prefixLoop_iff _ _).mp hp
    split at hd
    · cases hd
    rename_i h20
    simp only [List.length_append, not_not] at h20 h4 hd hck hret
    have hs : s.length = 24 := by omega
    rw [slice_ok (by omega) (by simp)] at hd
    have e : pre.length + s.length - 4 = pre.length + 20 := by omega
    have e1 : (pre ++ s).take (pre.length + 20) = pre ++ s.take 20 := List.take_length_add_append _
    have e2 : (pre ++ s).drop (pre.length + 20) = s.drop 20 := List.drop_length_add_append _
    rw [e, e1, List.drop_left] at hd
    rw [e, e1, e2] at hck
    cases hd
    refine ⟨?_, by rw [List.length_take]; omega⟩
    unfold IsBase58Check
    rw [hck, List.append_assoc, List.take_append_drop]
    exact (Addr.encode_iff Btc.alphabet_ok _ _).mp (C02_base58_canonical _ Btc.alphabet_ok _ _ hret)
  · rintro ⟨hb, hl⟩
    unfold IsBase58Check at hb
    obtain ⟨t, h1, h2, h3⟩ := C01_base58_roundtrip _ Btc.alphabet_ok (pre ++ h ++ (H.hash .doubleSha256 (pre ++ h)).take 4)
    have ht : t = addr := by
      have := (Addr.encode_iff Btc.alphabet_ok _ _).mpr hb
      rw [h1] at this
      exact Res.ok.inj this
    rw [ht] at h3
    have hck : ((H.hash .doubleSha256 (pre ++ h)).take 4).length = 4 := by
      rw [List.length_take, H.size]; rfl
    rw [h3, Res.bind_ok]
    generalize hck' : (H.hash .doubleSha256 (pre ++ h)).take 4 = ck at *
    have t4 : (pre ++ h ++ ck).length - 4 = (pre ++ h).length := by simp; omega
    rw [t4, List.take_left, List.drop_left, if_neg (by simp; omega), if_neg (not_not.mpr hck'),
      (prefixLoop_iff pre _).mpr ⟨h ++ ck, by rw [List.append_assoc]⟩, Res.bind_ok, if_neg (by simp; omega)]
    rw [slice_ok (by simp) (by simp), List.take_left, List.drop_left]

theorem upperHex_eq : ∀ b : Bytes, upperHex b = hexUpper b
  | [] => rfl
  | x :: b => by
    have ih := upperHex_eq b
    unfold upperHex SigSet.asciiUpper hexUpper at ih ⊢
    rw [Hex.encode, List.map_cons, List.map_cons, ih, List.flatMap_cons]
    have key : ∀ x : UInt8, [(fun c : UInt8 => if 0x61 ≤ c ∧ c ≤ 0x7a then c - 0x20 else c) (Hex.digit (x / 16)),
        (fun c : UInt8 => if 0x61 ≤ c ∧ c ≤ 0x7a then c - 0x20 else c) (Hex.digit (x % 16))] =
        [(asc "0123456789ABCDEF").getD (x.toNat / 16) 0, (asc "0123456789ABCDEF").getD (x.toNat % 16) 0] := by
      apply Hex.u8_forall; decide +kernel
    rw [← key x]
    rfl

theorem hexUpper_ascii (b : Bytes) : ∀ c ∈ hexUpper b, c.toNat < 128 := by
  intro c hc
  obtain ⟨x, _, hx⟩ := List.mem_flatMap.mp hc
  have key : ∀ x : UInt8, ∀ c ∈ [(asc "0123456789ABCDEF").getD (x.toNat / 16) 0, (asc "0123456789ABCDEF").getD (x.toNat % 16) 0], c.toNat < 128 := by
    apply Hex.u8_forall; decide +kernel
  exact key x c hx

theorem hexUpper_length (b : Bytes) : (hexUpper b).length = 2 * b.length := by
  induction b with
  | nil => rfl
  | cons x b ih => unfold hexUpper at ih ⊢; rw [List.flatMap_cons, List.length_append, ih, List.length_cons]; simp; omega

theorem value_ascii (c : UInt8) : Hex.value c ≠ none → c.toNat < 128 := by
  revert c; apply Hex.u8_forall; decide +kernel

theorem hex_ascii {t b : Bytes} (h : Hex.decode t = .ok b) : ∀ c ∈ t, c.toNat < 128 :=
  fun c hc => value_ascii c (((Hex.decode_isOk_iff t).mp ⟨b, h⟩).2 c hc)

theorem hex_append : ∀ {t b : Bytes} (_ : Hex.decode t = .ok b) (c : Bytes), Hex.decode (t ++ Hex.encode c) = .ok (b ++ c)
  | [], b, h, c => by
    rw [Hex.decode] at h
    cases h
    exact Hex.decode_encode c
  | [_], b, h, c => by simp [Hex.decode] at h
  | x :: y :: t, b, h, c => by
    unfold Hex.decode at h
    split at h
    · rename_i u v hx hy
      split at h
      · rename_i bs hr
        cases h
        rw [List.cons_append, List.cons_append, Hex.decode, hx, hy]
        simp only [hex_append hr c, List.cons_append]
      · cases h
      · cases h
    · cases h

theorem be4 (n : Int) : u32 n = be 4 n := rfl
theorem be8 (n : Int) : u64 n = be 8 n := rfl

theorem be_length (k : Nat) (n : Int) : (be k n).length = k := beBytes_length _ _

theorem lock_ascii (h : Bytes) : ∀ c ∈ lockText h, c.toNat < 128 := by
  intro c hc
  unfold lockText at hc
  rcases List.mem_append.mp hc with hc | hc
  · rcases List.mem_append.mp hc with hc | hc
    · clear * - hc; revert c; decide
    · exact hexUpper_ascii _ c hc
  · clear * - hc; revert c; decide

theorem unlock_ascii (s p : Bytes) : ∀ c ∈ unlockText s p, c.toNat < 128 := by
  intro c hc
  unfold unlockText at hc
  rcases List.mem_append.mp hc with hc | hc
  · rcases List.mem_append.mp hc with hc | hc
    · rcases List.mem_append.mp hc with hc | hc
      · exact hexUpper_ascii _ c hc
      · clear * - hc; revert c; decide
    · clear * - hc; revert c; decide
  · exact hexUpper_ascii _ c hc

/-! ### The structures of the code -/

def mIn (i : In) : InputMsg := ⟨i.txidText, i.index, i.unlock.length, i.unlock⟩
def mOut (o : Out × Nat) : OutputMsg := ⟨o.2, o.1.amount, o.1.lock.length, o.1.lock⟩
def mTx (t : Tx) : TransactionMsg :=
  ⟨t.version, t.hash, t.timestamp, t.locktime, t.expired, t.ins.length, t.outs.length, some (t.ins.map mIn), some (t.outs.zipIdx.map mOut), t.size⟩

/-- Requests and what becomes of them. -/
def InOf (v : Vin) (i : In) : Prop :=
  i.txidText = v.txid ∧ i.txid.length = 32 ∧ Hex.decode v.txid = .ok i.txid ∧ i.index = v.vout ∧ i.unlock = []
def OutOf (H : Hashes) (v : Vout) (o : Out) : Prop :=
  ∃ h, h.length = 20 ∧ IsBase58Check H Btc.alphabet v.addressPrefix h v.address ∧ 0 < v.amount ∧ o = ⟨v.amount, lockText h⟩

theorem newInputMsg_iff (v : Vin) (x : InputMsg) : newInputMsg v = .ok x ↔ ∃ i, InOf v i ∧ x = mIn i := by
  unfold newInputMsg
  constructor
  · intro h
    split at h
    · cases h
    rename_i h64
    obtain ⟨b, hb, h⟩ := Res.bind_eq_ok.mp h
    cases h
    have := Hex.decode_length _ _ hb
    exact ⟨⟨v.txid, b, v.vout, []⟩, ⟨rfl, (by show b.length = 32; omega), hb, rfl, rfl⟩, rfl⟩
  · rintro ⟨⟨tt, b, n, u⟩, ⟨h1, h2, h3, h4, h5⟩, rfl⟩
    have := Hex.decode_length _ _ h3
    simp only at *
    subst h1 h4 h5
    rw [if_neg (by omega), h3]
    rfl

theorem newInputs_iff : ∀ (vs : List Vin) (xs : List InputMsg), newInputs vs = .ok xs ↔ ∃ is, List.Forall₂ InOf vs is ∧ xs = is.map mIn
  | [], xs => by
    unfold newInputs
    constructor
    · intro h; cases h; exact ⟨[], .nil, rfl⟩
    · rintro ⟨is, h, rfl⟩; cases h; rfl
  | v :: vs, xs => by
    unfold newInputs
    constructor
    · intro h
      obtain ⟨x, hx, h⟩ := Res.bind_eq_ok.mp h
      obtain ⟨ys, hy, h⟩ := Res.bind_eq_ok.mp h
      cases h
      obtain ⟨i, h1, rfl⟩ := (newInputMsg_iff v x).mp hx
      obtain ⟨is, h2, rfl⟩ := (newInputs_iff vs ys).mp hy
      exact ⟨i :: is, .cons h1 h2, rfl⟩
    · rintro ⟨is, h, rfl⟩
      cases h with
      | cons h1 h2 =>
        rw [(newInputMsg_iff v _).mpr ⟨_, h1, rfl⟩, Res.bind_ok, (newInputs_iff vs _).mpr ⟨_, h2, rfl⟩]
        rfl

theorem newOutputMsg_iff (H : Hashes) (v : Vout) (n : Nat) (x : OutputMsg) : newOutputMsg H v n = .ok x ↔ ∃ o, OutOf H v o ∧ x = mOut (o, n) := by
  unfold newOutputMsg
  constructor
  · intro h
    obtain ⟨k, hk, h⟩ := Res.bind_eq_ok.mp h
    split at h
    · cases h
    rename_i ha
    cases h
    obtain ⟨h1, h2⟩ := (decodeCheck_iff _ _ _ _).mp hk
    refine ⟨⟨v.amount, lockText k⟩, ⟨k, h2, h1, by omega, rfl⟩, ?_⟩
    unfold mOut genLockScript lockText
    simp only [upperHex_eq]
  · rintro ⟨o, ⟨k, h1, h2, h3, rfl⟩, rfl⟩
    rw [(decodeCheck_iff _ _ _ _).mpr ⟨h2, h1⟩, Res.bind_ok, if_neg (by omega)]
    unfold mOut genLockScript lockText
    simp only [upperHex_eq]

theorem newOutputs_iff (H : Hashes) : ∀ (vs : List Vout) (n : Nat) (xs : List OutputMsg), newOutputs H n vs = .ok xs ↔
    ∃ os, List.Forall₂ (OutOf H) vs os ∧ xs = (os.zipIdx n).map mOut
  | [], n, xs => by
    unfold newOutputs
    constructor
    · intro h; cases h; exact ⟨[], .nil, rfl⟩
    · rintro ⟨is, h, rfl⟩; cases h; rfl
  | v :: vs, n, xs => by
    unfold newOutputs
    constructor
    · intro h
      obtain ⟨x, hx, h⟩ := Res.bind_eq_ok.mp h
      obtain ⟨ys, hy, h⟩ := Res.bind_eq_ok.mp h
      cases h
      obtain ⟨i, h1, rfl⟩ := (newOutputMsg_iff H v n x).mp hx
      obtain ⟨is, h2, rfl⟩ := (newOutputs_iff H vs (n + 1) ys).mp hy
      exact ⟨i :: is, .cons h1 h2, rfl⟩
    · rintro ⟨is, h, rfl⟩
      cases h with
      | cons h1 h2 =>
        rw [(newOutputMsg_iff H v n _).mpr ⟨_, h1, rfl⟩, Res.bind_ok, (newOutputs_iff H vs (n + 1) _).mpr ⟨_, h2, rfl⟩]
        rfl

/-- The transaction of a request. -/
def ReqTx (H : Hashes) (now : Int) (ins : List Vin) (outs : List Vout) (version lt ex : Int) (t : Tx) : Prop :=
  List.Forall₂ InOf ins t.ins ∧ List.Forall₂ (OutOf H) outs t.outs ∧ t.version = version ∧ t.timestamp = now ∧ t.locktime = lt ∧ t.expired = ex ∧
    t.hash = [] ∧ t.size = 0

theorem createEmpty_iff (H : Hashes) (now : Int) (ins : List Vin) (outs : List Vout) (version lt ex : Int) (r : Bytes × List Bytes) :
    createEmpty H now ins outs version lt ex = .ok r ↔ ins ≠ [] ∧ outs ≠ [] ∧
      ∃ t, ReqTx H now ins outs version lt ex t ∧ r = (marshal (txJson (mTx t)), ins.map genMessage) := by
  unfold createEmpty
  constructor
  · intro h
    split at h
    · cases h
    rename_i h1
    split at h
    · cases h
    rename_i h2
    obtain ⟨is, hi, h⟩ := Res.bind_eq_ok.mp h
    obtain ⟨os, ho, h⟩ := Res.bind_eq_ok.mp h
    cases h
    obtain ⟨is, h3, rfl⟩ := (newInputs_iff _ _).mp hi
    obtain ⟨os, h4, rfl⟩ := (newOutputs_iff _ _ _ _).mp ho
    refine ⟨h1, h2, ⟨version, [], now, lt, ex, is, os, 0⟩, ⟨h3, h4, rfl, rfl, rfl, rfl, rfl, rfl⟩, ?_⟩
    unfold mTx
    rw [h3.length_eq, h4.length_eq]
  · rintro ⟨h1, h2, ⟨ver, hash, ts, lt', ex', is, os, sz⟩, ⟨h3, h4, h5, h6, h7, h8, h9, h10⟩, rfl⟩
    simp only at h3 h4 h5 h6 h7 h8 h9 h10
    subst h5 h6 h7 h8 h9 h10
    rw [if_neg h1, if_neg h2, (newInputs_iff _ _).mpr ⟨is, h3, rfl⟩, Res.bind_ok, (newOutputs_iff _ _ _ _).mpr ⟨os, h4, rfl⟩, Res.bind_ok]
    unfold mTx
    rw [h3.length_eq, h4.length_eq]

/-! ### JSON -/

theorem inputJson_is (i : In) : IsInput i (inputJson (mIn i)) :=
  ⟨formatInt i.index, formatInt i.unlock.length, formatInt_decimal _, formatInt_decimal _, rfl⟩

theorem outputJson_is (o : Out × Nat) : IsOutput o (outputJson (mOut o)) :=
  ⟨formatInt o.2, formatInt o.1.amount, formatInt o.1.lock.length, formatInt_decimal _, formatInt_decimal _, formatInt_decimal _, rfl⟩

theorem forall₂_map {α β γ : Type} {R : α → γ → Prop} {f : α → β} {g : β → γ} (h : ∀ x, R x (g (f x))) : ∀ l : List α, List.Forall₂ R l ((l.map f).map g)
  | [] => .nil
  | x :: l => .cons (h x) (forall₂_map h l)

theorem txJson_is (t : Tx) : IsTx t (txJson (mTx t)) :=
  ⟨formatInt t.version, formatInt t.timestamp, formatInt t.locktime, formatInt t.expired, formatInt t.ins.length, formatInt t.outs.length,
    (t.ins.map mIn).map inputJson, (t.outs.zipIdx.map mOut).map outputJson, formatInt t.size, formatInt_decimal _, formatInt_decimal _, formatInt_decimal _,
    formatInt_decimal _, formatInt_decimal _, formatInt_decimal _, formatInt_decimal _, forall₂_map inputJson_is _, forall₂_map outputJson_is _, rfl⟩

/-- All texts are ASCII. -/
def Ascii (s : Bytes) : Prop := ∀ c ∈ s, c.toNat < 128
def TxAscii (t : Tx) : Prop := Ascii t.hash ∧ (∀ i ∈ t.ins, Ascii i.txidText ∧ Ascii i.unlock) ∧ ∀ o ∈ t.outs, Ascii o.lock

theorem clean_num (n : Int) : Clean (.num (formatInt n)) := .num _ n (formatInt_decimal n)

theorem clean_tx {t : Tx} (h : TxAscii t) : Clean (txJson (mTx t)) := by
  obtain ⟨h0, h1, h2⟩ := h
  refine Clean.obj _ ?_ ?_ <;> intro m hm <;> simp only [List.mem_cons, List.not_mem_nil, or_false] at hm
  · rcases hm with rfl | rfl | rfl | rfl | rfl | rfl | rfl | rfl | rfl | rfl <;> exact Cosmos.asc_utf8 _ (by decide)
  · rcases hm with rfl | rfl | rfl | rfl | rfl | rfl | rfl | rfl | rfl | rfl
    · exact clean_num _
    · exact .str _ (Cosmos.ascii_utf8 h0)
    · exact clean_num _
    · exact clean_num _
    · exact clean_num _
    · exact clean_num _
    · exact clean_num _
    · refine Cosmos.clean_slice (f := inputJson) (l := (mTx t).inputs) ?_
      intro x hx
      obtain ⟨i, hi, rfl⟩ := List.mem_map.mp hx
      refine Clean.obj _ ?_ ?_ <;> intro m hm <;> simp only [List.mem_cons, List.not_mem_nil, or_false] at hm
      · rcases hm with rfl | rfl | rfl | rfl <;> exact Cosmos.asc_utf8 _ (by decide)
      · rcases hm with rfl | rfl | rfl | rfl
        · exact .str _ (Cosmos.ascii_utf8 (h1 i hi).1)
        · exact clean_num _
        · exact clean_num _
        · exact .str _ (Cosmos.ascii_utf8 (h1 i hi).2)
    · refine Cosmos.clean_slice (f := outputJson) (l := (mTx t).outputs) ?_
      intro x hx
      obtain ⟨⟨o, n⟩, ho, rfl⟩ := List.mem_map.mp hx
      have ho' : o ∈ t.outs := by
        obtain ⟨k, hk, he⟩ := List.mem_iff_getElem.mp ho
        rw [List.getElem_zipIdx] at he
        rw [← (Prod.mk.inj he).1]
        exact List.getElem_mem _
      refine Clean.obj _ ?_ ?_ <;> intro m hm <;> simp only [List.mem_cons, List.not_mem_nil, or_false] at hm
      · rcases hm with rfl | rfl | rfl | rfl <;> exact Cosmos.asc_utf8 _ (by decide)
      · rcases hm with rfl | rfl | rfl | rfl
        · exact clean_num _
        · exact clean_num _
        · exact clean_num _
        · exact .str _ (Cosmos.ascii_utf8 (h2 o ho'))
    · exact clean_num _

/-- What Go's types `int` and `int64` hold. -/
def Fits64 (n : Int) : Prop := -(2 ^ 63) ≤ n ∧ n < 2 ^ 63

/-- All numbers of the transaction fit. -/
def TxFits (t : TransactionMsg) : Prop :=
  Fits64 t.version ∧ Fits64 t.timestamp ∧ Fits64 t.lockTime ∧ Fits64 t.expiredTime ∧ Fits64 t.inputCount ∧ Fits64 t.outputCount ∧ Fits64 t.size ∧
    (∀ i ∈ t.inputs.getD [], Fits64 i.index ∧ Fits64 i.size) ∧ ∀ o ∈ t.outputs.getD [], Fits64 o.index ∧ Fits64 o.amount ∧ Fits64 o.size

theorem toInt_format {n : Int} (h : Fits64 n) (c : Int) : toInt c (.num (formatInt n)) = some n :=
  parseInt_decimal (formatInt_decimal n) h.1 h.2

theorem field_eq (fold : Bytes → Bytes → Bool) {names : List Bytes} {k : Bytes} {i : Nat} (h : names.findIdx? (· == k) = some i) : field fold names k = some i := by
  unfold field
  rw [h]

theorem setFields_cons {α : Type} (fold : Bytes → Bytes → Bool) {names : List Bytes} {set : α → Nat → Json → Option α} {a b : α} {k : Bytes} {v : Json}
    {l : List (Bytes × Json)} {i : Nat} (h : names.findIdx? (· == k) = some i) (hs : set a i v = some b) :
    setFields fold names set a ((k, v) :: l) = setFields fold names set b l := by
  rw [setFields, field_eq fold h]
  simp only [hs]

theorem toInput_ok (fold : Bytes → Bytes → Bool) (i : InputMsg) (h : Fits64 i.index ∧ Fits64 i.size) :
    toStruct fold inputNames setInput {} (inputJson i) = some i := by
  unfold inputJson toStruct
  simp only
  rw [setFields_cons (i := 0) (b := { txHash := i.txHash }) fold (by decide) rfl,
    setFields_cons (i := 1) (b := { txHash := i.txHash, index := i.index }) fold (by decide) (by simp only [setInput, toInt_format h.1]; rfl),
    setFields_cons (i := 2) (b := { txHash := i.txHash, index := i.index, size := i.size }) fold (by decide) (by simp only [setInput, toInt_format h.2]; rfl),
    setFields_cons (i := 3) (b := i) fold (by decide) rfl]
  rfl

theorem toOutput_ok (fold : Bytes → Bytes → Bool) (o : OutputMsg) (h : Fits64 o.index ∧ Fits64 o.amount ∧ Fits64 o.size) :
    toStruct fold outputNames setOutput {} (outputJson o) = some o := by
  unfold outputJson toStruct
  simp only
  rw [setFields_cons (i := 0) (b := { index := o.index }) fold (by decide) (by simp only [setOutput, toInt_format h.1]; rfl),
    setFields_cons (i := 1) (b := { index := o.index, amount := o.amount }) fold (by decide) (by simp only [setOutput, toInt_format h.2.1]; rfl),
    setFields_cons (i := 2) (b := { index := o.index, amount := o.amount, size := o.size }) fold (by decide) (by simp only [setOutput, toInt_format h.2.2]; rfl),
    setFields_cons (i := 3) (b := o) fold (by decide) rfl]
  rfl

theorem mapM_map {α : Type} {f : α → Json} {g : Json → Option α} : ∀ (l : List α), (∀ x ∈ l, g (f x) = some x) → (l.map f).mapM g = some l
  | [], _ => rfl
  | x :: l, h => by
    obtain ⟨h1, h2⟩ := List.forall_mem_cons.mp h
    rw [List.map_cons, List.mapM_cons, h1, mapM_map l h2]
    rfl

theorem toSlice_ok {α : Type} {f : α → Json} {g : Json → Option α} (l : Slice α) (h : ∀ x ∈ l.getD [], g (f x) = some x) :
    toSlice g (sliceJson f l) = some l := by
  cases l with
  | none => rfl
  | some l => unfold sliceJson toSlice; simp only; rw [mapM_map l h]; rfl

theorem toTx_ok (fold : Bytes → Bytes → Bool) (t : TransactionMsg) (h : TxFits t) : toStruct fold txNames (setTx fold) {} (txJson t) = some t := by
  obtain ⟨h0, h2, h3, h4, h5, h6, h9, h7, h8⟩ := h
  unfold txJson toStruct
  simp only
  rw [setFields_cons (i := 0) (b := { version := t.version }) fold (by decide) (by simp only [setTx, toInt_format h0]; rfl),
    setFields_cons (i := 1) (b := { version := t.version, hash := t.hash }) fold (by decide) rfl,
    setFields_cons (i := 2) (b := { version := t.version, hash := t.hash, timestamp := t.timestamp }) fold (by decide)
      (by simp only [setTx, toInt_format h2]; rfl),
    setFields_cons (i := 3) (b := { version := t.version, hash := t.hash, timestamp := t.timestamp, lockTime := t.lockTime }) fold (by decide)
      (by simp only [setTx, toInt_format h3]; rfl),
    setFields_cons (i := 4) (b := ⟨t.version, t.hash, t.timestamp, t.lockTime, t.expiredTime, 0, 0, none, none, 0⟩) fold (by decide)
      (by simp only [setTx, toInt_format h4]; rfl),
    setFields_cons (i := 5) (b := ⟨t.version, t.hash, t.timestamp, t.lockTime, t.expiredTime, t.inputCount, 0, none, none, 0⟩) fold (by decide)
      (by simp only [setTx, toInt_format h5]; rfl),
    setFields_cons (i := 6) (b := ⟨t.version, t.hash, t.timestamp, t.lockTime, t.expiredTime, t.inputCount, t.outputCount, none, none, 0⟩) fold (by decide)
      (by simp only [setTx, toInt_format h6]; rfl),
    setFields_cons (i := 7) (b := ⟨t.version, t.hash, t.timestamp, t.lockTime, t.expiredTime, t.inputCount, t.outputCount, t.inputs, none, 0⟩) fold (by decide)
      (by simp only [setTx]; rw [toSlice_ok t.inputs fun i hi => toInput_ok fold i (h7 i hi)]; rfl),
    setFields_cons (i := 8) (b := ⟨t.version, t.hash, t.timestamp, t.lockTime, t.expiredTime, t.inputCount, t.outputCount, t.inputs, t.outputs, 0⟩) fold
      (by decide) (by simp only [setTx]; rw [toSlice_ok t.outputs fun o ho => toOutput_ok fold o (h8 o ho)]; rfl),
    setFields_cons (i := 9) (b := t) fold (by decide) (by simp only [setTx, toInt_format h9]; rfl)]
  rfl

theorem unmarshal_ok (fold : Bytes → Bytes → Bool) {t : Tx} (h : TxAscii t) (h' : TxFits (mTx t)) : unmarshal fold (marshal (txJson (mTx t))) = some (mTx t) := by
  unfold unmarshal
  rw [parse_marshal (clean_tx h)]
  exact toTx_ok fold _ h'

/-! ### Combining -/

theorem genUnlockScript_iff (sp : SigPub) (u : Bytes) : genUnlockScript sp = .ok u ↔
    sp.signature.length = 64 ∧ sp.pubkey.length = 32 ∧ u = unlockText sp.signature sp.pubkey := by
  unfold genUnlockScript unlockText
  simp only [upperHex_eq]
  split
  · simp_all
  · split
    · simp_all
    · simp_all [eq_comm]

/-- A signature that fits an input. -/
def Signed (verify : Bytes → Bytes → Bytes → Bool) (i : In) (sp : SigPub) : Prop :=
  sp.signature.length = 64 ∧ sp.pubkey.length = 32 ∧ verify sp.pubkey (message i.txid i.index) sp.signature = true

theorem unlockLoop_iff (verify : Bytes → Bytes → Bytes → Bool) : ∀ (is : List In) (sps : List SigPub) (xs : List InputMsg), is.length = sps.length →
    (∀ i ∈ is, Hex.decode i.txidText = .ok i.txid) →
    (unlockLoop verify (is.map mIn) sps = .ok xs ↔ List.Forall₂ (Signed verify) is sps ∧
      xs = (is.zip sps).map fun p => mIn { p.1 with unlock := unlockText p.2.signature p.2.pubkey })
  | [], [], xs, _, _ => by
    simp only [List.map_nil, unlockLoop, List.zip_nil_left, List.Forall₂.nil, true_and, Res.ok.injEq]
    exact eq_comm
  | [], _ :: _, _, h, _ => by cases h
  | _ :: _, [], _, h, _ => by cases h
  | i :: is, sp :: sps, xs, hl, hd => by
    obtain ⟨d1, d2⟩ := List.forall_mem_cons.mp hd
    have hm : genMessageBytes (mIn i) = .ok (message i.txid i.index) := by
      unfold genMessageBytes mIn
      simp only
      rw [d1]
      rfl
    rw [List.map_cons, unlockLoop, hm, Res.bind_ok, List.zip_cons_cons, List.map_cons]
    have ih := unlockLoop_iff verify is sps
    constructor
    · intro h
      split at h
      · cases h
      rename_i hv
      obtain ⟨u, hu, h⟩ := Res.bind_eq_ok.mp h
      obtain ⟨ys, hy, h⟩ := Res.bind_eq_ok.mp h
      cases h
      obtain ⟨h1, h2, rfl⟩ := (genUnlockScript_iff _ _).mp hu
      obtain ⟨h3, rfl⟩ := (ih ys (by simpa using hl) d2).mp hy
      refine ⟨.cons ⟨h1, h2, by simpa using hv⟩ h3, rfl⟩
    · rintro ⟨h, rfl⟩
      cases h with
      | cons h1 h2 =>
        obtain ⟨h3, h4, h5⟩ := h1
        rw [h5, (genUnlockScript_iff sp _).mpr ⟨h3, h4, rfl⟩, (ih _ (by simpa using hl) d2).mpr ⟨h2, rfl⟩]
        rfl

theorem body_eq (t : Tx) (h : ∀ i ∈ t.ins, Hex.decode i.txidText = .ok i.txid) (H : Hashes) : complete H (mTx t) =
    mTx { t with hash := hexUpper (H.hash .sha256 (body t)), size := (body t).length + 36 } := by
  have hb : u64 (mTx t).timestamp ++ u64 (mTx t).lockTime ++ u64 (mTx t).expiredTime ++ u32 (mTx t).inputCount ++ ((mTx t).inputs.getD []).flatMap InputMsg.toBytes ++
      u32 (mTx t).outputCount ++ ((mTx t).outputs.getD []).flatMap OutputMsg.toBytes = body t := by
    have h1 : (t.ins.map mIn).flatMap InputMsg.toBytes = t.ins.flatMap fun i => i.txid ++ be 4 i.index ++ be 4 i.unlock.length ++ i.unlock := by
      rw [List.flatMap_map, List.flatMap_def, List.flatMap_def]
      congr 1
      apply List.map_congr_left
      intro i hi
      unfold InputMsg.toBytes mIn
      simp only
      rw [Hex.decodePrefix_of_ok _ _ (h i hi)]
      rfl
    have h2 : (t.outs.zipIdx.map mOut).flatMap OutputMsg.toBytes =
        t.outs.zipIdx.flatMap fun o => be 4 o.2 ++ be 8 o.1.amount ++ be 4 o.1.lock.length ++ o.1.lock := by
      rw [List.flatMap_map]
      rfl
    unfold mTx body
    simp only [Option.getD_some]
    rw [h1, h2]
    rfl
  unfold complete
  rw [hb]
  simp only [upperHex_eq]
  rfl

end Verif.Fiii
