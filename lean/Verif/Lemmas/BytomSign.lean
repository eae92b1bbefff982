import Verif.Lemmas.BytomTx

/-! Lemmas about `bytomTransaction`: hashes, signatures, verification. -/

namespace Verif.Bytom
open _root_.Verif.Spec.Bytom (In Out Tx str varint inWire outWire btm spendId muxId resultIds txId sigHash outputId entry InOf OutOf RequestOf
  multiScript SingleSig TwoSigs IsAddress)

/-! ### Numbers too large for the buffer -/

theorem uint64ToUvarint_cases (x : UInt64) : (x.toNat < 2 ^ 56 ∧ uint64ToUvarint x.toNat = .ok (varint x.toNat)) ∨
    (2 ^ 56 ≤ x.toNat ∧ uint64ToUvarint x.toNat = .panic) := by
  by_cases h : x.toNat < 2 ^ 56
  · exact .inl ⟨h, uint64ToUvarint_ok h⟩
  · exact .inr ⟨by omega, uint64ToUvarint_panic (by omega) x.toNat_lt⟩

theorem newTxIn_panic {v : Vin} {i : In} (h : InOf v i) (hl : 2 ^ 56 ≤ i.amount ∨ 2 ^ 56 ≤ i.position) : newTxIn v = .panic := by
  obtain ⟨a, b, c, d, e⟩ := h
  unfold newTxIn
  rw [a, b, c]
  simp only [Res.bind_ok]
  rcases uint64ToUvarint_cases v.sourcePosition with ⟨p1, p2⟩ | ⟨p1, p2⟩
  · rw [p2]
    rcases uint64ToUvarint_cases v.amount with ⟨q1, q2⟩ | ⟨q1, q2⟩
    · rw [d] at q1; rw [e] at p1; omega
    · rw [q2]; rfl
  · rw [p2]; rfl

theorem newTxIns_panic {vins : List Vin} {ins : List In} (h : List.Forall₂ InOf vins ins)
    (hl : ∃ i ∈ ins, 2 ^ 56 ≤ i.amount ∨ 2 ^ 56 ≤ i.position) : newTxIns vins = .panic := by
  induction h with
  | nil => simp at hl
  | @cons v i vs is a _ ih =>
    unfold newTxIns
    by_cases hi : 2 ^ 56 ≤ i.amount ∨ 2 ^ 56 ≤ i.position
    · rw [newTxIn_panic a hi]; rfl
    · rw [newTxIn_ok a (by omega) (by omega)]
      rw [ih (by
        obtain ⟨j, hj, hjl⟩ := hl
        rcases List.mem_cons.mp hj with rfl | hj
        · exact absurd hjl hi
        · exact ⟨j, hj, hjl⟩)]
      rfl

theorem newTxOut_panic {test : Bool} {v : Vout} {o : Out} (h : OutOf test v o) (hl : 2 ^ 56 ≤ o.amount) :
    newTxOut v = .panic ∧ slice v.address 0 2 = .ok (hrpOf test) := by
  obtain ⟨a, p, hp, ha, hpr⟩ := h
  obtain ⟨g1, g2⟩ := outProgram_ok hp ha
  refine ⟨?_, g2⟩
  unfold newTxOut
  rw [g1]
  simp only [Res.bind_ok]
  rcases uint64ToUvarint_cases v.amount with ⟨q1, q2⟩ | ⟨q1, q2⟩
  · omega
  · rw [q2]; rfl

theorem newTxOuts_panic {test : Bool} {vouts : List Vout} {outs : List Out} (h : List.Forall₂ (OutOf test) vouts outs)
    (hl : ∃ o ∈ outs, 2 ^ 56 ≤ o.amount) : newTxOuts vouts = .panic := by
  induction h with
  | nil => simp at hl
  | @cons v o vs os a _ ih =>
    unfold newTxOuts
    by_cases hi : 2 ^ 56 ≤ o.amount
    · rw [(newTxOut_panic a hi).1]; rfl
    · rw [(newTxOut_ok a (by omega)).1]
      rw [ih (by
        obtain ⟨j, hj, hjl⟩ := hl
        rcases List.mem_cons.mp hj with rfl | hj
        · exact absurd hjl hi
        · exact ⟨j, hj, hjl⟩)]
      rfl

theorem check_ok {test : Bool} {vouts : List Vout} {outs : List Out} (h : List.Forall₂ (OutOf test) vouts outs) : checkAddresses test vouts = .ok () := by
  induction h with
  | nil => rfl
  | @cons v o vs os a _ ih =>
    obtain ⟨_, p, hp, ha, _⟩ := a
    unfold checkAddresses
    rw [(outProgram_ok hp ha).2, ih]
    simp

theorem create_panic {vins : List Vin} {vouts : List Vout} {time : UInt64} {test : Bool} {t : Tx} (h : RequestOf vins vouts time test t)
    (hi : vins ≠ []) (ho : vouts ≠ [])
    (hl : (∃ i ∈ t.ins, 2 ^ 56 ≤ i.amount ∨ 2 ^ 56 ≤ i.position) ∨ (∃ o ∈ t.outs, 2 ^ 56 ≤ o.amount) ∨ 2 ^ 56 ≤ t.time) :
    createEmpty vins vouts time test = .panic := by
  obtain ⟨h1, h2, h3⟩ := h
  unfold createEmpty newEmptyTransaction
  rw [check_ok h2]
  simp only [Res.bind_ok]
  rw [if_neg (by simpa using hi)]
  by_cases c1 : ∃ i ∈ t.ins, 2 ^ 56 ≤ i.amount ∨ 2 ^ 56 ≤ i.position
  · rw [newTxIns_panic h1 c1]; rfl
  · have hins := newTxIns_ok h1 (fun i hi => by
      by_contra hc
      exact c1 ⟨i, hi, by omega⟩)
    rw [hins]
    simp only [Res.bind_ok]
    rw [if_neg (by simpa using ho)]
    by_cases c2 : ∃ o ∈ t.outs, 2 ^ 56 ≤ o.amount
    · rw [newTxOuts_panic h2 c2]; rfl
    · have houts := (newTxOuts_ok h2 (fun o ho => by
        by_contra hc
        exact c2 ⟨o, ho, by omega⟩)).1
      rw [houts, uint64ToUvarint_ok (by norm_num)]
      have h4 : 2 ^ 56 ≤ t.time := by
        rcases hl with hl | hl | hl
        · exact absurd hl c1
        · exact absurd hl c2
        · exact hl
      have h5 : uint64ToUvarint time.toNat = .panic := uint64ToUvarint_panic (by omega) time.toNat_lt
      rw [h5]; rfl

/-! ### Hashes to be signed -/

/-- What is returned for an input. -/
def HashOf (H : Hashes) (t : Tx) (test : Bool) (i : In) (th : TxHash) : Prop :=
  th.hash = Hex.encode (sigHash H t i) ∧ th.multi = [] ∧
    (i.program.length = 34 → th.nRequired = 1 ∧ th.normal = none) ∧
    (i.program.length = 22 → th.nRequired = 0 ∧ ∃ a, th.normal = some ⟨a, {}⟩ ∧ IsAddress (Spec.Bytom.hrp test) (i.program.drop 2) a)

theorem hashFor_ok {H : Hashes} {T : Transaction} {t : Tx} (h : Like T t) (hf : t.Fits) (test : Bool) {k : Nat} {i : In} (hk : t.ins[k]? = some i)
    {m : TxIn} (hm : m.controlProgram = i.program) : ∃ th, hashFor H T test k m = .ok th ∧ HashOf H t test i th := by
  obtain ⟨a1, a2, a3, a4, a5, a6, a7⟩ := id hf
  obtain ⟨f1, f2, f3, f4, f5⟩ := a6 i (List.mem_of_getElem? hk)
  unfold hashFor
  rw [sigHash_ok h hf hk]
  simp only [Res.bind_ok, hm]
  by_cases h34 : i.program.length = 34
  · rw [if_pos h34]
    exact ⟨_, rfl, rfl, rfl, fun _ => ⟨rfl, rfl⟩, fun h => by omega⟩
  · rw [if_neg h34, slice_ok (by omega) (by omega)]
    obtain ⟨hh, hl, he⟩ := hrpOf_ok test
    have hd : (i.program.take i.program.length).drop 2 = i.program.drop 2 := by simp
    obtain ⟨a, ha, hia⟩ := encode_address (hrpOf test) (i.program.drop 2) hh (by omega) (by rw [List.length_drop]; omega)
    simp only [Res.bind_ok]
    rw [hd, ha]
    refine ⟨_, rfl, rfl, rfl, fun h => by omega, fun _ => ⟨rfl, a, rfl, ?_⟩⟩
    rw [← he]; exact hia

theorem hashLoop_ok {H : Hashes} {T : Transaction} {t : Tx} (h : Like T t) (hf : t.Fits) (test : Bool) : ∀ (ms : List TxIn) (ins : List In) (k : Nat),
    List.Forall₂ LikeIn ms ins → (∀ j i, ins[j]? = some i → t.ins[k + j]? = some i) →
    ∃ ths, hashLoop H T test k ms = .ok ths ∧ List.Forall₂ (HashOf H t test) ins ths
  | _, _, k, .nil, _ => ⟨[], rfl, .nil⟩
  | m :: ms, i :: is, k, .cons r hr, hs => by
    obtain ⟨th, e1, e2⟩ := hashFor_ok (H := H) h hf test (hs 0 i (by simp)) r.2.2.2.2
    obtain ⟨ths, e3, e4⟩ := hashLoop_ok (H := H) h hf test ms is (k + 1) hr (fun j x hj => by
      have := hs (j + 1) x (by simpa using hj)
      rw [show k + 1 + j = k + (j + 1) by omega]; exact this)
    refine ⟨th :: ths, ?_, .cons e2 e4⟩
    unfold hashLoop
    rw [Nat.add_zero] at e1
    rw [e1, e3]
    rfl

theorem hashForSig_ok {H : Hashes} {t : Tx} (hf : t.Fits) (hp : ∀ i ∈ t.ins, i.position < 128) {args : List (List Bytes)} (ha : args.length = t.ins.length)
    (hw : ∀ a ∈ args, Wit a) (test : Bool) :
    ∃ ths, hashForSig H (Hex.encode (t.wire args)) test = .ok ths ∧ List.Forall₂ (HashOf H t test) t.ins ths := by
  unfold hashForSig
  rw [Hex.decode_encode]
  simp only [Res.bind_ok]
  rw [decode_wire hf hp ha hw]
  simp only [Res.bind_ok]
  have hk := mkTx_like t ha hw
  exact hashLoop_ok hk hf test _ _ 0 hk.2.1 (fun j i hj => by rw [Nat.zero_add]; exact hj)

theorem wit_nil (t : Tx) : ∀ a ∈ t.ins.map (fun _ => ([] : List Bytes)), Wit a := by
  intro a ha
  simp only [List.mem_map] at ha
  obtain ⟨_, _, rfl⟩ := ha
  exact .inl rfl

/-! ### Multi-signature scripts -/

theorem scriptKeys_ok (keys : List Bytes) (h : ∀ k ∈ keys, k.length = 32) : scriptKeys keys = .ok (keys.flatMap str) := by
  induction keys with
  | nil => rfl
  | cons k ks ih =>
    have hk := h k (by simp)
    unfold scriptKeys
    rw [if_neg (by omega), ih (fun x hx => h x (by simp [hx]))]
    simp only [Res.bind_ok, List.flatMap_cons]
    rw [str_small (by omega), hk]
    rfl

theorem scriptKeys_err (keys : List Bytes) (h : ∃ k ∈ keys, k.length ≠ 32) : scriptKeys keys = .err := by
  induction keys with
  | nil => simp at h
  | cons k ks ih =>
    unfold scriptKeys
    by_cases hk : k.length ≠ 32
    · rw [if_pos hk]
    · rw [if_neg hk, ih (by
        obtain ⟨j, hj, hjl⟩ := h
        rcases List.mem_cons.mp hj with rfl | hj
        · exact absurd hjl hk
        · exact ⟨j, hj, hjl⟩)]
      rfl

theorem keys_length (keys : List Bytes) (h : ∀ k ∈ keys, k.length = 32) : (keys.flatMap str).length = 33 * keys.length := by
  induction keys with
  | nil => rfl
  | cons k ks ih =>
    have hk := h k (by simp)
    rw [List.flatMap_cons, List.length_append, str_length (by omega), ih (fun x hx => h x (by simp [hx])), hk, List.length_cons]
    omega

theorem opcode (r : UInt8) : 0x50 + r = UInt8.ofNat (0x50 + r.toNat) := by
  rw [UInt8.ofNat_add]; simp

theorem opcode' (n : Nat) : 0x50 + UInt8.ofNat n = UInt8.ofNat (0x50 + n) := by
  rw [UInt8.ofNat_add]; rfl

theorem signScript_ok (r : UInt8) (keys : List Bytes) (h : ∀ k ∈ keys, k.length = 32) : signScript r keys = .ok (multiScript r.toNat keys) := by
  unfold signScript multiScript
  rw [scriptKeys_ok keys h, opcode, opcode']
  simp

theorem readKeys_ok : ∀ (keys : List Bytes) (fuel : Nat) (c : UInt8) (r : Bytes), (∀ k ∈ keys, k.length = 32) → keys.length < fuel → c ≠ 0x20 →
    readKeys fuel (keys.flatMap str ++ c :: r) = .ok (keys, c :: r)
  | [], fuel + 1, c, r, _, _, hc => by simp [readKeys, hc]
  | k :: ks, fuel + 1, c, r, h, hf, hc => by
    have hk := h k (by simp)
    have ih := readKeys_ok ks fuel c r (fun x hx => h x (by simp [hx])) (by simpa using hf) hc
    rw [List.flatMap_cons, str_small (by omega), hk]
    simp only [List.cons_append, List.append_assoc, readKeys]
    rw [if_neg (by decide), takeN_append _ _ hk]
    simp only [Res.bind_ok]
    rw [ih]
    rfl
  | _, 0, _, _, _, hf, _ => by omega

theorem sub_opcode (n : Nat) : UInt8.ofNat (0x50 + n) - 0x50 = UInt8.ofNat n := by
  rw [← opcode', UInt8.add_comm, UInt8.add_sub_cancel]

theorem opcode_ne {n : Nat} (h : n ≤ 16) : UInt8.ofNat (0x50 + n) ≠ 0x20 := by
  intro e
  have := congrArg UInt8.toNat e
  rw [ofNat_toNat (by omega)] at this
  have : 0x50 + n = 0x20 := this
  omega

theorem detail_ok (required : Nat) (keys : List Bytes) (h : ∀ k ∈ keys, k.length = 32) (h1 : 1 ≤ required) (h2 : required ≤ 16) :
    getMultiSigDetail (multiScript required keys) = .ok (keys.map (fun k => ⟨Hex.encode k, {}⟩), UInt8.ofNat required) := by
  unfold getMultiSigDetail multiScript
  simp only [List.cons_append, List.nil_append, take1, Res.bind_ok]
  rw [if_neg (by decide), readKeys_ok keys _ _ _ h (by
    rw [List.length_append, keys_length keys h]; omega) (opcode_ne h2)]
  simp only [Res.bind_ok]
  rw [sub_opcode, sub_opcode, if_neg (ofNat_ne_zero (by omega) (by omega)), if_neg (by simp), if_neg (by decide), if_neg (by simp)]

theorem pad_ok (th : TxHash) (required : Nat) (keys : List Bytes) (h : ∀ k ∈ keys, k.length = 32) (h1 : 1 ≤ required) (h2 : required ≤ 16) :
    padMultiSig th (Hex.encode (multiScript required keys)) =
      .ok { th with nRequired := UInt8.ofNat required, multi := keys.map (fun k => ⟨Hex.encode k, {}⟩) } := by
  unfold padMultiSig
  rw [Hex.decode_encode]
  simp only [Res.bind_ok]
  rw [detail_ok required keys h h1 h2]
  rfl

theorem sha3_size (H : Hashes) (b : Bytes) : (sha3 H b).length = 32 := by
  unfold sha3; rw [H.size]; rfl

theorem createMulti_ok (H : Hashes) (required : UInt8) (keys : List Bytes) (test : Bool) (h : ∀ k ∈ keys, k.length = 32) (h1 : 1 ≤ required.toNat)
    (h2 : required.toNat ≤ keys.length) :
    ∃ a, createMultiSig H required keys test = .ok (a, Hex.encode (multiScript required.toNat keys)) ∧
      IsAddress (Spec.Bytom.hrp test) (Spec.Bytom.sha3 H (multiScript required.toNat keys)) a := by
  obtain ⟨hh, hl, he⟩ := hrpOf_ok test
  obtain ⟨a, ha, hia⟩ := encode_address (hrpOf test) (sha3 H (multiScript required.toNat keys)) hh (by omega) (by rw [sha3_size]; omega)
  refine ⟨a, ?_, by rw [← he]; exact hia⟩
  unfold createMultiSig
  rw [if_neg (by omega), if_neg (by rintro rfl; simp at h1), if_neg (by omega), signScript_ok required keys h]
  simp only [Res.bind_ok]
  rw [ha]
  rfl

theorem createMulti_err (H : Hashes) (required : UInt8) (keys : List Bytes) (test : Bool)
    (h : ¬ ((∀ k ∈ keys, k.length = 32) ∧ 1 ≤ required.toNat ∧ required.toNat ≤ keys.length)) : createMultiSig H required keys test = .err := by
  unfold createMultiSig
  by_cases c0 : keys.length = 0
  · rw [if_pos c0]
  · rw [if_neg c0]
    by_cases c1 : required = 0
    · rw [if_pos c1]
    · rw [if_neg c1]
      by_cases c2 : keys.length < required.toNat
      · rw [if_pos c2]
      · rw [if_neg c2]
        have hr : 1 ≤ required.toNat := by
          by_contra hc
          exact c1 (UInt8.toNat_inj.mp (by show required.toNat = 0; omega))
        have : ∃ k ∈ keys, k.length ≠ 32 := by
          by_contra hc
          push Not at hc
          exact h ⟨hc, hr, by omega⟩
        unfold signScript
        rw [scriptKeys_err keys this]
        rfl

theorem script_length (required : Nat) (keys : List Bytes) (h : ∀ k ∈ keys, k.length = 32) : (multiScript required keys).length = 33 * keys.length + 4 := by
  unfold multiScript
  simp only [List.length_append, keys_length keys h, List.length_cons, List.length_nil]
  omega

theorem multiKeys_ok : ∀ (ms : List MultiTx) (keys : List Bytes), ms.map (fun m => m.sigPub.pubkey) = keys.map some → (∀ k ∈ keys, k.length = 32) →
    multiKeys ms = .ok keys
  | [], [], _, _ => rfl
  | [], _ :: _, h, _ => by simp at h
  | _ :: _, [], h, _ => by simp at h
  | m :: ms, k :: ks, h, hk => by
    simp only [List.map_cons, List.cons.injEq] at h
    have h32 := hk k (by simp)
    unfold multiKeys
    rw [h.1]
    simp only
    rw [if_neg (by omega), multiKeys_ok ms ks h.2 (fun x hx => hk x (by simp [hx]))]
    rfl

theorem gather_one : ∀ (ms : List MultiTx) (s : Bytes) (more : List Bytes), ms.filterMap (fun m => m.sigPub.signature) = s :: more → s.length = 64 →
    gatherSigs 2 1 ms = .ok (0x40 :: s, 2)
  | [], _, _, h, _ => by simp at h
  | m :: ms, s, more, h, hs => by
    unfold gatherSigs
    cases hm : m.sigPub.signature with
    | none =>
      simp only [List.filterMap_cons, hm] at h
      exact gather_one ms s more h hs
    | some x =>
      simp only [List.filterMap_cons, hm, List.cons.injEq] at h
      obtain ⟨rfl, _⟩ := h
      simp only
      rw [if_neg (by simp [hs]), if_pos (by decide)]

theorem gather_two : ∀ (ms : List MultiTx) (s1 s2 : Bytes) (more : List Bytes), ms.filterMap (fun m => m.sigPub.signature) = s1 :: s2 :: more →
    s1.length = 64 → s2.length = 64 → gatherSigs 2 0 ms = .ok (0x40 :: (s1 ++ 0x40 :: s2), 2)
  | [], _, _, _, h, _, _ => by simp at h
  | m :: ms, s1, s2, more, h, h1, h2 => by
    unfold gatherSigs
    cases hm : m.sigPub.signature with
    | none =>
      simp only [List.filterMap_cons, hm] at h
      exact gather_two ms s1 s2 more h h1 h2
    | some x =>
      simp only [List.filterMap_cons, hm, List.cons.injEq] at h
      obtain ⟨rfl, h⟩ := h
      simp only
      rw [if_neg (by simp [h1]), if_neg (by decide), gather_one ms s2 more h h2]
      rfl

theorem multiBytes_ok (H : Hashes) {th : TxHash} {keys args : List Bytes} (h : TwoSigs th keys args) :
    getMultiSigBytes H th = .ok (str (varint args.length ++ args.flatMap str), [0, 0x20] ++ Spec.Bytom.sha3 H (multiScript 2 keys)) ∧ Wit args := by
  obtain ⟨h1, h2, h3, h4, s1, s2, more, h5, h6, h7, rfl⟩ := h
  have hl := script_length 2 keys h3
  have hsc : (multiScript 2 keys).length = 70 ∨ (multiScript 2 keys).length = 103 := by omega
  refine ⟨?_, .inr (.inr ⟨s1, s2, _, h6, h7, hsc, rfl⟩)⟩
  unfold getMultiSigBytes
  rw [wit_multi h6 h7 hsc, h1, if_neg (by decide), multiKeys_ok _ keys h4 h3]
  simp only [Res.bind_ok]
  rw [signScript_ok 2 keys h3, gather_two _ _ _ _ h5 h6 h7]
  simp only [Res.bind_ok]
  rw [if_neg (by decide)]
  have e : (2 : UInt8).toNat = 2 := rfl
  rw [e]
  have hlen : ([1, 3] ++ 0x40 :: (s1 ++ 0x40 :: s2) ++ UInt8.ofNat (multiScript 2 keys).length :: multiScript 2 keys).length - 1 =
      132 + (multiScript 2 keys).length := by
    simp [h6, h7]; omega
  rw [hlen]
  simp only [List.cons_append, List.nil_append, List.append_assoc]
  rfl

theorem readSigs_ok : ∀ (sigs : List Bytes) (fuel : Nat) (c : UInt8) (r : Bytes), (∀ s ∈ sigs, s.length = 64) → sigs.length < fuel → c ≠ 0x40 →
    readSigs fuel (sigs.flatMap str ++ c :: r) = .ok (sigs, c :: r)
  | [], fuel + 1, c, r, _, _, hc => by simp [readSigs, hc]
  | k :: ks, fuel + 1, c, r, h, hf, hc => by
    have hk := h k (by simp)
    have ih := readSigs_ok ks fuel c r (fun x hx => h x (by simp [hx])) (by simpa using hf) hc
    rw [List.flatMap_cons, str_small (by omega), hk]
    simp only [List.cons_append, List.append_assoc, readSigs]
    rw [if_neg (by decide), takeN_append _ _ hk]
    simp only [Res.bind_ok]
    rw [ih]
    rfl
  | _, 0, _, _, _, hf, _ => by omega

theorem multiPubs_ok {s1 s2 : Bytes} {keys : List Bytes} (h1 : s1.length = 64) (h2 : s2.length = 64) (h3 : ∀ k ∈ keys, k.length = 32)
    (h4 : keys.length = 2 ∨ keys.length = 3) :
    getMultiSigPubs ([1, 3, 0x40] ++ s1 ++ [0x40] ++ s2 ++ UInt8.ofNat (multiScript 2 keys).length :: multiScript 2 keys) = .ok ([s1, s2], keys) := by
  have hl := script_length 2 keys h3
  have e : ([1, 3, 0x40] : Bytes) ++ s1 ++ [0x40] ++ s2 ++ UInt8.ofNat (multiScript 2 keys).length :: multiScript 2 keys =
      1 :: 3 :: ([s1, s2].flatMap str ++ UInt8.ofNat (multiScript 2 keys).length :: multiScript 2 keys) := by
    simp only [List.flatMap_cons, List.flatMap_nil, List.append_nil]
    rw [str_small (b := s1) (by omega), str_small (b := s2) (by omega), h1, h2]
    simp only [List.cons_append, List.nil_append, List.append_assoc]
    rfl
  rw [e]
  unfold getMultiSigPubs
  simp only
  rw [if_neg (by decide), readSigs_ok [s1, s2] _ _ _ (by
    intro s hs
    simp only [List.mem_cons, List.not_mem_nil, or_false] at hs
    rcases hs with rfl | rfl <;> assumption) (by simp; omega) (by
    intro e
    have := congrArg UInt8.toNat e
    rw [ofNat_toNat (by omega)] at this
    have : (multiScript 2 keys).length = 64 := this
    omega)]
  simp only [Res.bind_ok, take1]
  rw [ofNat_toNat (by omega), if_neg (by simp)]
  unfold multiScript
  simp only [List.cons_append, List.nil_append, Res.bind_ok]
  rw [if_neg (by decide), readKeys_ok keys _ _ _ h3 (by
    rw [List.length_append, keys_length keys h3]; omega) (opcode_ne (by omega))]
  simp only [Res.bind_ok]
  rw [sub_opcode, sub_opcode, ofNat_toNat (by omega), if_neg (by simp), if_neg (by simp), if_neg (by decide), if_neg (by simp)]

/-! ### Inserting signatures -/

/-- A signed hash for an input, with the witness it stands for. -/
def Signs (H : Hashes) (th : TxHash) (i : In) (args : List Bytes) : Prop :=
  SingleSig th args ∨ ∃ keys, TwoSigs th keys args ∧ i.program = [0, 0x20] ++ Spec.Bytom.sha3 H (multiScript 2 keys)

theorem single_bytes {th : TxHash} {args : List Bytes} (h : SingleSig th args) :
    Wit args ∧ th.nRequired = 0 ∧ ∃ n, th.normal = some n ∧ n.sigPub.toBytes = .ok (str (varint args.length ++ args.flatMap str)) := by
  obtain ⟨h0, a, s, p, h1, h2, h3, rfl⟩ := h
  refine ⟨.inr (.inl ⟨s, p, h2, h3, rfl⟩), h0, _, h1, ?_⟩
  rw [wit_single h2 h3]
  unfold SigPub.toBytes
  simp only
  rw [if_neg (by omega)]

theorem insertOne_ok {H : Hashes} {th : TxHash} {i : In} {args : List Bytes} (h : Signs H th i args) (hi : InFits i) (rest : List TxIn) :
    Wit args ∧ ∃ m : TxIn, insertOne H th (mkIn i :: rest) = .ok (m, rest) ∧ m.toBytes = .ok (inWire i args) := by
  rcases h with h | ⟨keys, h, hp⟩
  · obtain ⟨hw, h0, n, hn, hb⟩ := single_bytes h
    refine ⟨hw, { mkIn i with sigPub := some n.sigPub, multiSig := none }, ?_, ?_⟩
    · unfold insertOne
      rw [if_neg (by simp [h0]), hn]
    · rw [toBytes_eq hi]
      simp only [hb, Res.bind_ok]
      rfl
  · obtain ⟨hb, hw⟩ := multiBytes_ok H h
    refine ⟨hw, { mkIn i with sigPub := none, multiSig := some (str (varint args.length ++ args.flatMap str)) }, ?_, ?_⟩
    · unfold insertOne
      rw [if_pos (by rw [h.1]; decide), hb]
      simp only [Res.bind_ok]
      rw [← hp]
      rfl
    · rw [toBytes_eq hi]
      rfl

theorem insertLoop_ok {H : Hashes} : ∀ (ths : List TxHash) (ins : List In) (args : List (List Bytes)), ths.length = ins.length → args.length = ins.length →
    (∀ (k : Nat) th i a, ths[k]? = some th → ins[k]? = some i → args[k]? = some a → Signs H th i a) → (∀ i ∈ ins, InFits i) →
    (∀ a ∈ args, Wit a) ∧ ∃ ms, insertLoop H ths (ins.map mkIn) = .ok ms ∧
      List.Forall₂ (fun m (x : In × List Bytes) => m.toBytes = .ok (inWire x.1 x.2)) ms (ins.zip args)
  | [], [], [], _, _, _, _ => ⟨by simp, [], rfl, .nil⟩
  | th :: ths, i :: ins, a :: args, h1, h2, hs, hf => by
    obtain ⟨w1, m, m1, m2⟩ := insertOne_ok (hs 0 th i a rfl rfl rfl) (hf i (by simp)) (ins.map mkIn)
    obtain ⟨w2, ms, e1, e2⟩ := insertLoop_ok ths ins args (by simpa using h1) (by simpa using h2)
      (fun k th i a x y z => hs (k + 1) th i a (by simpa using x) (by simpa using y) (by simpa using z)) (fun j hj => hf j (by simp [hj]))
    refine ⟨?_, m :: ms, ?_, .cons m2 e2⟩
    · intro b hb
      rcases List.mem_cons.mp hb with rfl | hb
      · exact w1
      · exact w2 b hb
    · unfold insertLoop
      rw [List.map_cons, m1]
      simp only [Res.bind_ok]
      rw [e1]
      rfl
  | [], _ :: _, _, h, _, _, _ => by simp at h
  | _ :: _, [], _, h, _, _, _ => by simp at h
  | _, [], _ :: _, _, h, _, _ => by simp at h
  | _, _ :: _, [], _, h, _, _ => by simp at h

/-- Signatures for the first inputs only. -/
theorem insertLoop_some {H : Hashes} : ∀ (ths : List TxHash) (ins : List In) (args : List (List Bytes)), args.length = ths.length →
    ths.length ≤ ins.length → (∀ (k : Nat) th i a, ths[k]? = some th → ins[k]? = some i → args[k]? = some a → Signs H th i a) → (∀ i ∈ ins, InFits i) →
    (∀ a ∈ args, Wit a) ∧ ∃ ms, insertLoop H ths (ins.map mkIn) = .ok ms ∧
      List.Forall₂ (fun m (x : In × List Bytes) => m.toBytes = .ok (inWire x.1 x.2)) ms
        (ins.zip (args ++ List.replicate (ins.length - ths.length) []))
  | [], ins, [], _, _, _, hf => by
    refine ⟨by simp, ins.map mkIn, rfl, ?_⟩
    simp only [List.nil_append, List.length_nil, Nat.sub_zero]
    induction ins with
    | nil => exact .nil
    | cons i ins ih =>
      simp only [List.length_cons, List.replicate_succ, List.zip_cons_cons, List.map_cons]
      exact .cons (mkIn_toBytes (hf i (by simp))) (ih (by simp) (by simp) (fun j hj => hf j (by simp [hj])))
  | th :: ths, i :: ins, a :: args, h1, h2, hs, hf => by
    obtain ⟨w1, m, m1, m2⟩ := insertOne_ok (hs 0 th i a rfl rfl rfl) (hf i (by simp)) (ins.map mkIn)
    obtain ⟨w2, ms, e1, e2⟩ := insertLoop_some ths ins args (by simpa using h1) (by simpa using h2)
      (fun k th i a x y z => hs (k + 1) th i a (by simpa using x) (by simpa using y) (by simpa using z)) (fun j hj => hf j (by simp [hj]))
    refine ⟨?_, m :: ms, ?_, ?_⟩
    · intro b hb
      rcases List.mem_cons.mp hb with rfl | hb
      · exact w1
      · exact w2 b hb
    · unfold insertLoop
      rw [List.map_cons, m1]
      simp only [Res.bind_ok]
      rw [e1]
      rfl
    · simp only [List.cons_append, List.zip_cons_cons, List.length_cons, Nat.add_sub_add_right]
      exact .cons m2 e2
  | [], _, _ :: _, h, _, _, _ => by simp at h
  | _ :: _, [], _, _, h, _, _ => by simp at h
  | _ :: _, _, [], h, _, _, _ => by simp at h

theorem insertLoop_more {H : Hashes} : ∀ (ths : List TxHash) (ins : List In) (args : List (List Bytes)), args.length = ins.length →
    ins.length < ths.length → (∀ (k : Nat) th i a, ths[k]? = some th → ins[k]? = some i → args[k]? = some a → Signs H th i a) →
    (∀ th ∈ ths.drop ins.length, th.nRequired = 0) → (∀ i ∈ ins, InFits i) → insertLoop H ths (ins.map mkIn) = .panic
  | [], _, _, _, h, _, _, _ => by simp at h
  | th :: ths, [], _, _, _, _, hn, _ => by
    have h0 := hn th (by simp)
    unfold insertLoop insertOne
    rw [if_neg (by simp [h0])]
    rfl
  | th :: ths, i :: ins, a :: args, h1, h2, hs, hn, hf => by
    obtain ⟨w1, m, m1, m2⟩ := insertOne_ok (hs 0 th i a rfl rfl rfl) (hf i (by simp)) (ins.map mkIn)
    unfold insertLoop
    rw [List.map_cons, m1]
    simp only [Res.bind_ok]
    rw [insertLoop_more ths ins args (by simpa using h1) (by simpa using h2)
      (fun k th i a x y z => hs (k + 1) th i a (by simpa using x) (by simpa using y) (by simpa using z)) (by simpa using hn)
      (fun j hj => hf j (by simp [hj]))]
    rfl
  | _ :: _, _ :: _, [], h, _, _, _, _ => by simp at h

theorem decoded_nil (ins : List In) : List.zipWith decoded ins (ins.map fun _ => []) = ins.map mkIn := by
  induction ins with
  | nil => rfl
  | cons i ins ih => rw [List.map_cons, List.zipWith_cons_cons, ih]; rfl

theorem insert_ok {H : Hashes} {t : Tx} (hf : t.Fits) (hp : ∀ i ∈ t.ins, i.position < 128) {ths : List TxHash} {args : List (List Bytes)}
    (h1 : ths.length = t.ins.length) (h2 : args.length = t.ins.length)
    (hs : ∀ (k : Nat) th i a, ths[k]? = some th → t.ins[k]? = some i → args[k]? = some a → Signs H th i a) :
    insertSignatures H (Hex.encode t.unsigned) ths = .ok (Hex.encode (t.wire args)) ∧ ∀ a ∈ args, Wit a := by
  have hf' := hf
  obtain ⟨a1, a2, a3, a4, a5, a6, a7⟩ := hf
  obtain ⟨w, ms, e1, e2⟩ := insertLoop_ok ths t.ins args h1 h2 hs a6
  refine ⟨?_, w⟩
  unfold insertSignatures Tx.unsigned
  rw [Hex.decode_encode]
  simp only [Res.bind_ok]
  rw [decode_wire hf' hp (by simp) (wit_nil t)]
  simp only [Res.bind_ok, mkTx, decoded_nil, List.length_map]
  rw [if_neg (by omega), if_neg (by omega), if_neg (by omega), e1]
  simp only [Res.bind_ok]
  rw [toBytes_wire hf' args h2 ms e2]
  rfl

/-! ### Verification -/

theorem clone_like {T : Transaction} {t : Tx} (h : Like T t) : Like (cloneEmpty T) t := by
  refine ⟨h.1, ?_, h.2.2⟩
  have := h.2.1
  unfold cloneEmpty
  simp only
  generalize T.inputs = l at this
  generalize t.ins = l' at this
  induction this with
  | nil => exact .nil
  | cons a _ ih => exact .cons a ih

theorem allHashes_ok {H : Hashes} {T : Transaction} {t : Tx} (h : Like T t) (hf : t.Fits) : allHashes H T = .ok (t.ins.map (sigHash H t)) := by
  unfold allHashes
  rw [collect_ok (getSigHash H T) (fun _ => sigHash H t) T.inputs t.ins 0 h.2.1.length_eq (fun j b hj => by
    rw [Nat.zero_add]; exact sigHash_ok h hf hj), mapIdx_const]

theorem verify_head {H : Hashes} {verify : Bytes → Bytes → Bytes → Bool} {t : Tx} (hf : t.Fits) (hp : ∀ i ∈ t.ins, i.position < 128)
    {args : List (List Bytes)} (h2 : args.length = t.ins.length) (hw : ∀ a ∈ args, Wit a) :
    verifyRaw H verify (Hex.encode (t.wire args)) = verifyLoop verify (t.ins.map (sigHash H t)) (List.zipWith decoded t.ins args) := by
  unfold verifyRaw
  rw [Hex.decode_encode]
  simp only
  rw [decode_wire hf hp h2 hw]
  simp only
  have hk := mkTx_like t h2 hw
  have hlen := hk.2.1.length_eq
  rw [if_neg (by rw [hlen]; have := hf.1; omega), allHashes_ok (clone_like hk) hf]
  rfl

/-- The check of one input: a signature by the key, or two signatures counted against the keys not before them. -/
def InputOk (verify : Bytes → Bytes → Bytes → Bool) (msg : Bytes) (i : In) (args : List Bytes) : Prop :=
  (i.program.length = 22 ∧ ∃ s p, args = [s, p] ∧ verify p msg s = true) ∨
    (i.program.length = 34 ∧ ∃ s1 s2 keys, args = [s1, s2, multiScript 2 keys] ∧ (∀ k ∈ keys, k.length = 32) ∧ (keys.length = 2 ∨ keys.length = 3) ∧
      (keys.filter (fun k => verify k msg s1)).length + (keys.tail.filter (fun k => verify k msg s2)).length = 2)

/-- The witness has the form that belongs to the program. -/
def Fitting (i : In) (args : List Bytes) : Prop :=
  (i.program.length = 22 ∧ ∃ s p : Bytes, s.length = 64 ∧ p.length = 32 ∧ args = [s, p]) ∨
    (i.program.length = 34 ∧ ∃ (s1 s2 : Bytes) (keys : List Bytes), s1.length = 64 ∧ s2.length = 64 ∧ (∀ k ∈ keys, k.length = 32) ∧
      (keys.length = 2 ∨ keys.length = 3) ∧ args = [s1, s2, multiScript 2 keys])

theorem fitting_wit {i : In} {args : List Bytes} (h : Fitting i args) : Wit args := by
  rcases h with ⟨_, s, p, h1, h2, rfl⟩ | ⟨_, s1, s2, keys, h1, h2, h3, h4, rfl⟩
  · exact .inr (.inl ⟨s, p, h1, h2, rfl⟩)
  · exact .inr (.inr ⟨s1, s2, _, h1, h2, by rw [script_length 2 keys h3]; omega, rfl⟩)

theorem script_inj {a b : List Bytes} (ha : ∀ k ∈ a, k.length = 32) (hb : ∀ k ∈ b, k.length = 32) (h : multiScript 2 a = multiScript 2 b) : a = b := by
  have d1 := detail_ok 2 a ha (by omega) (by omega)
  have d2 := detail_ok 2 b hb (by omega) (by omega)
  rw [h, d2] at d1
  have := (Prod.mk.inj (Res.ok.inj d1)).1
  have hinj : Function.Injective (fun k : Bytes => (⟨Hex.encode k, {}⟩ : MultiTx)) := by
    intro x y hxy
    have h1 : Hex.encode x = Hex.encode y := (MultiTx.mk.inj hxy).1
    have h2 := Hex.decode_encode x
    rw [h1, Hex.decode_encode] at h2
    exact (Res.ok.inj h2).symm
  exact (List.map_injective_iff.mpr hinj this).symm

theorem verifyIn_ok (verify : Bytes → Bytes → Bytes → Bool) (msg : Bytes) {i : In} {args : List Bytes} (h : Fitting i args) :
    ∃ b, verifyIn verify msg (decoded i args) = .ok b ∧ (b = true ↔ InputOk verify msg i args) := by
  rcases h with ⟨hl, s, p, h1, h2, rfl⟩ | ⟨hl, s1, s2, keys, h1, h2, h3, h4, rfl⟩
  · refine ⟨verify p msg s, ?_, ?_⟩
    · unfold verifyIn
      rw [if_neg (by simp only [decoded, mkIn]; omega)]
      rfl
    · constructor
      · intro h; exact .inl ⟨hl, s, p, rfl, h⟩
      · rintro (⟨_, s', p', e, h⟩ | ⟨h, _⟩)
        · simp only [List.cons.injEq, and_true] at e
          rw [e.1, e.2]; exact h
        · omega
  · have hc : ∀ ks : List Bytes, countPairs verify msg [s1, s2] ks =
        (ks.filter (fun k => verify k msg s1)).length + (ks.tail.filter (fun k => verify k msg s2)).length := by
      intro ks
      simp [countPairs]
    refine ⟨decide (countPairs verify msg [s1, s2] keys = 2), ?_, ?_⟩
    · unfold verifyIn
      rw [if_pos (by simp only [decoded, mkIn]; exact hl)]
      simp only [decoded, Option.getD_some]
      rw [multiPubs_ok h1 h2 h3 h4]
      rfl
    · rw [decide_eq_true_iff, hc]
      constructor
      · intro h; exact .inr ⟨hl, s1, s2, keys, rfl, h3, h4, h⟩
      · rintro (⟨h, _⟩ | ⟨_, a, b, ks, e, k1, k2, h⟩)
        · omega
        · simp only [List.cons.injEq, and_true] at e
          obtain ⟨rfl, rfl, e⟩ := e
          rw [script_inj h3 k1 e]; exact h

theorem verifyLoop_ok (verify : Bytes → Bytes → Bytes → Bool) (f : In → Bytes) : ∀ (ins : List In) (args : List (List Bytes)), args.length = ins.length →
    (∀ (k : Nat) i a, ins[k]? = some i → args[k]? = some a → Fitting i a) →
    ∃ b, verifyLoop verify (ins.map f) (List.zipWith decoded ins args) = .ok b ∧
      (b = true ↔ ∀ (k : Nat) i a, ins[k]? = some i → args[k]? = some a → InputOk verify (f i) i a)
  | [], [], _, _ => ⟨true, rfl, by simp⟩
  | [], _ :: _, h, _ => by simp at h
  | _ :: _, [], h, _ => by simp at h
  | i :: ins, a :: args, h, hf => by
    obtain ⟨b1, e1, c1⟩ := verifyIn_ok verify (f i) (hf 0 i a rfl rfl)
    obtain ⟨b2, e2, c2⟩ := verifyLoop_ok verify f ins args (by simpa using h)
      (fun k x y h1 h2 => hf (k + 1) x y (by simpa using h1) (by simpa using h2))
    simp only [List.map_cons, List.zipWith_cons_cons, verifyLoop]
    rw [e1]
    have split : (∀ (k : Nat) x y, (i :: ins)[k]? = some x → (a :: args)[k]? = some y → InputOk verify (f x) x y) ↔
        InputOk verify (f i) i a ∧ ∀ (k : Nat) x y, ins[k]? = some x → args[k]? = some y → InputOk verify (f x) x y := by
      constructor
      · intro hh
        exact ⟨hh 0 i a rfl rfl, fun k x y h1 h2 => hh (k + 1) x y (by simpa using h1) (by simpa using h2)⟩
      · rintro ⟨h0, hr⟩ k x y h1 h2
        cases k with
        | zero =>
          simp only [List.getElem?_cons_zero, Option.some.injEq] at h1 h2
          subst h1; subst h2; exact h0
        | succ k => exact hr k x y (by simpa using h1) (by simpa using h2)
    rw [split]
    cases b1 with
    | true => exact ⟨b2, e2, by rw [c2]; simp [c1.mp rfl]⟩
    | false =>
      refine ⟨false, rfl, ?_⟩
      simp only [Bool.false_eq_true, false_iff, not_and]
      intro h0
      exact absurd (c1.mpr h0) (by simp)

theorem verify_ok {H : Hashes} {verify : Bytes → Bytes → Bytes → Bool} {t : Tx} (hf : t.Fits) (hp : ∀ i ∈ t.ins, i.position < 128)
    {args : List (List Bytes)} (h2 : args.length = t.ins.length) (hw : ∀ (k : Nat) i a, t.ins[k]? = some i → args[k]? = some a → Fitting i a) :
    ∃ b, verifyRaw H verify (Hex.encode (t.wire args)) = .ok b ∧
      (b = true ↔ ∀ (k : Nat) i a, t.ins[k]? = some i → args[k]? = some a → InputOk verify (sigHash H t i) i a) := by
  rw [verify_head hf hp h2 (by
    intro a ha
    obtain ⟨k, hk, rfl⟩ := List.getElem_of_mem ha
    exact fitting_wit (hw k t.ins[k] args[k] (List.getElem?_eq_getElem (by omega)) (List.getElem?_eq_getElem hk)))]
  exact verifyLoop_ok verify (sigHash H t) t.ins args h2 hw

end Verif.Bytom
