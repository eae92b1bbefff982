import Verif.Lemmas.BytomSign

/-! Properties of Bytom transactions (C107 to C112). -/

namespace Verif
open Verif.Spec Verif.Spec.Bytom

namespace Bytom

/-- A program hash, a receiver and a transaction for the examples below. -/
def exHash : Bytes := List.replicate 20 7

theorem exAddress (test : Bool) : ∃ a, IsAddress (hrp test) exHash a := by
  obtain ⟨hh, hl, he⟩ := hrpOf_ok test
  obtain ⟨a, _, h⟩ := encode_address (hrpOf test) exHash hh (by omega) (.inl rfl)
  exact ⟨a, he ▸ h⟩

/-- Two inputs, one for a single key and one for several, and one output. -/
def exTx : Tx :=
  ⟨0, [⟨List.replicate 32 1, btm, 41250000000, 2, [0, 0x14] ++ exHash⟩, ⟨List.replicate 32 3, btm, 700, 0, [0, 0x20] ++ List.replicate 32 5⟩],
    [⟨41240000000, [0, 0x14] ++ exHash⟩]⟩

theorem exTx_fits : exTx.Fits := by
  refine ⟨by decide, by decide, by decide, by decide, by decide, ?_, ?_⟩
  · decide
  · decide

theorem exTx_pos : ∀ i ∈ exTx.ins, i.position < 128 := by decide

/-- Arguments that describe the transaction. -/
theorem exRequest : ∃ vins vouts, RequestOf vins vouts 0 false exTx := by
  obtain ⟨a, ha⟩ := exAddress false
  refine ⟨exTx.ins.map (fun i => ⟨Hex.encode i.source, UInt64.ofNat i.position, Hex.encode i.asset, UInt64.ofNat i.amount, Hex.encode i.program⟩),
    [⟨a, 41240000000⟩], ?_, ?_, rfl⟩
  · exact .cons ⟨Hex.decode_encode _, Hex.decode_encode _, Hex.decode_encode _, rfl, rfl⟩
      (.cons ⟨Hex.decode_encode _, Hex.decode_encode _, Hex.decode_encode _, rfl, rfl⟩ .nil)
  · exact .cons ⟨rfl, exHash, .inl rfl, ha, rfl⟩ .nil

end Bytom

/-! ### C107: creating -/

/-- C107: the text created for a request is the hexadecimal form of Bytom's serialisation of the transaction described, without witnesses. -/
theorem C107_layout (vins : List Bytom.Vin) (vouts : List Bytom.Vout) (time : UInt64) (test : Bool) (t : Tx) (h : RequestOf vins vouts time test t)
    (hf : t.Fits) : Bytom.createEmpty vins vouts time test = .ok (Hex.encode t.unsigned) := Bytom.create_ok h hf

example : ∃ vins vouts, RequestOf vins vouts 0 false Bytom.exTx ∧ Bytom.exTx.Fits := by
  obtain ⟨vins, vouts, h⟩ := Bytom.exRequest
  exact ⟨vins, vouts, h, Bytom.exTx_fits⟩

/-- The bound on the numbers is sharp: a request with an amount, position or time range of 2^56 or more makes the function panic. -/
theorem C107_limit_panics (vins : List Bytom.Vin) (vouts : List Bytom.Vout) (time : UInt64) (test : Bool) (t : Tx)
    (h : RequestOf vins vouts time test t) (hi : vins ≠ []) (ho : vouts ≠ [])
    (hl : (∃ i ∈ t.ins, 2 ^ 56 ≤ i.amount ∨ 2 ^ 56 ≤ i.position) ∨ (∃ o ∈ t.outs, 2 ^ 56 ≤ o.amount) ∨ 2 ^ 56 ≤ t.time) :
    Bytom.createEmpty vins vouts time test = .panic := Bytom.create_panic h hi ho hl

example : ∃ vins vouts t, RequestOf vins vouts 1152921504606846976 false t ∧ vins ≠ [] ∧ vouts ≠ [] ∧ 2 ^ 56 ≤ t.time := by
  obtain ⟨vins, vouts, h1, h2, h3⟩ := Bytom.exRequest
  refine ⟨vins, vouts, { Bytom.exTx with time := 1152921504606846976 }, ⟨h1, h2, by decide⟩, ?_, ?_, by norm_num⟩
  · rintro rfl; cases h1
  · rintro rfl; cases h2

/-! ### C108: hashes and signers -/

/-- C108, as far as it holds: for a created transaction, if every input has a position below 128, one item is returned for every input, in order: the
hexadecimal form of the hash its owner signs; for a program of a single key the address of the hash in the program, for a script's the mark that
the script is needed. -/
theorem C108_hashes_partial (H : Hashes) (t : Tx) (hf : t.Fits) (hp : ∀ i ∈ t.ins, i.position < 128) (test : Bool) :
    ∃ ths, Bytom.hashForSig H (Hex.encode t.unsigned) test = .ok ths ∧
      List.Forall₂ (fun i th => th.hash = Hex.encode (sigHash H t i) ∧ th.multi = [] ∧
        (i.program.length = 34 → th.nRequired = 1 ∧ th.normal = none) ∧
        (i.program.length = 22 → th.nRequired = 0 ∧ ∃ a, th.normal = some ⟨a, {}⟩ ∧ IsAddress (hrp test) (i.program.drop 2) a)) t.ins ths :=
  Bytom.hashForSig_ok hf hp (by simp) (Bytom.wit_nil t) test

example : Bytom.exTx.Fits ∧ (∀ i ∈ Bytom.exTx.ins, i.position < 128) := ⟨Bytom.exTx_fits, Bytom.exTx_pos⟩

/-- C108 is false beyond that: a transaction is created for inputs with larger positions, but its text is always refused when the hashes are asked for,
and when signatures are inserted. -/
theorem C108_positions_violated (H : Hashes) (vins : List Bytom.Vin) (vouts : List Bytom.Vout) (time : UInt64) (test : Bool) (t : Tx)
    (h : RequestOf vins vouts time test t) (hf : t.Fits) (hp : ∃ i ∈ t.ins, 128 ≤ i.position) :
    ∃ text, Bytom.createEmpty vins vouts time test = .ok text ∧ Bytom.hashForSig H text test = .err ∧
      ∀ ths, Bytom.insertSignatures H text ths = .err := by
  refine ⟨_, Bytom.create_ok h hf, ?_, ?_⟩
  · unfold Bytom.hashForSig
    rw [Hex.decode_encode]
    simp only [Res.bind_ok]
    rw [Tx.unsigned, Bytom.decode_wire_err hf hp (by simp) (Bytom.wit_nil t)]
    rfl
  · intro ths
    unfold Bytom.insertSignatures
    rw [Hex.decode_encode]
    simp only [Res.bind_ok]
    rw [Tx.unsigned, Bytom.decode_wire_err hf hp (by simp) (Bytom.wit_nil t)]
    rfl

example : ∃ vins vouts t, RequestOf vins vouts 0 false t ∧ t.Fits ∧ ∃ i ∈ t.ins, 128 ≤ i.position := by
  obtain ⟨a, ha⟩ := Bytom.exAddress false
  refine ⟨[⟨Hex.encode (List.replicate 32 1), 128, Hex.encode btm, 5, Hex.encode ([0, 0x14] ++ Bytom.exHash)⟩], [⟨a, 4⟩],
    ⟨0, [⟨List.replicate 32 1, btm, 5, 128, [0, 0x14] ++ Bytom.exHash⟩], [⟨4, [0, 0x14] ++ Bytom.exHash⟩]⟩, ⟨?_, ?_, rfl⟩, ?_, ?_⟩
  · exact .cons ⟨Hex.decode_encode _, Hex.decode_encode _, Hex.decode_encode _, rfl, rfl⟩ .nil
  · exact .cons ⟨rfl, Bytom.exHash, .inl rfl, ha, rfl⟩ .nil
  · refine ⟨by decide, by decide, by decide, by decide, by decide, by decide, by decide⟩
  · exact ⟨_, List.mem_singleton.mpr rfl, le_refl _⟩

/-! ### C109: one signature per input -/

/-- C109, as far as it holds: for a transaction whose inputs belong to single keys, signatures for all of them are inserted as the chain's serialisation
of the witnesses, and the verifier accepts the result exactly if every signature is valid for the key beside it and the hash of its input. -/
theorem C109_sign_verify_partial (H : Hashes) (verify : Bytes → Bytes → Bytes → Bool) (t : Tx) (hf : t.Fits)
    (hp : ∀ i ∈ t.ins, i.position < 128 ∧ i.program.length = 22) (ths : List Bytom.TxHash) (args : List (List Bytes))
    (h : List.Forall₂ SingleSig ths args) (hl : ths.length = t.ins.length) :
    Bytom.insertSignatures H (Hex.encode t.unsigned) ths = .ok (Hex.encode (t.wire args)) ∧
    ∃ b, Bytom.verifyRaw H verify (Hex.encode (t.wire args)) = .ok b ∧
      (b = true ↔ ∀ (k : Nat) i s p, t.ins[k]? = some i → args[k]? = some [s, p] → verify p (sigHash H t i) s = true) := by
  have hla : args.length = t.ins.length := by rw [← h.length_eq, hl]
  have hget : ∀ (k : Nat) (th : Bytom.TxHash) a, ths[k]? = some th → args[k]? = some a → SingleSig th a := by
    intro k th a h1 h2
    obtain ⟨th', e1, e2⟩ := Bytom.forall2_index h h2
    rw [h1] at e1; cases e1; exact e2
  obtain ⟨i1, i2⟩ := Bytom.insert_ok (H := H) hf (fun i hi => (hp i hi).1) hl hla (fun k th i a h1 _ h3 => .inl (hget k th a h1 h3))
  refine ⟨i1, ?_⟩
  have hfit : ∀ (k : Nat) i a, t.ins[k]? = some i → args[k]? = some a → Bytom.Fitting i a := by
    intro k i a h1 h2
    obtain ⟨th, e1, _, _, s, p, _, e2, e3, e4⟩ := Bytom.forall2_index h h2
    exact .inl ⟨(hp i (List.mem_of_getElem? h1)).2, s, p, e2, e3, e4⟩
  obtain ⟨b, v1, v2⟩ := Bytom.verify_ok (H := H) (verify := verify) hf (fun i hi => (hp i hi).1) hla hfit
  refine ⟨b, v1, v2.trans ?_⟩
  constructor
  · intro hh k i s p h1 h2
    rcases hh k i _ h1 h2 with ⟨_, s', p', e, hv⟩ | ⟨hc, _⟩
    · simp only [List.cons.injEq, and_true] at e
      rw [e.1, e.2]; exact hv
    · have := (hp i (List.mem_of_getElem? h1)).2; omega
  · intro hh k i a h1 h2
    obtain ⟨th, e1, _, _, s, p, _, e2, e3, rfl⟩ := Bytom.forall2_index h h2
    exact .inl ⟨(hp i (List.mem_of_getElem? h1)).2, s, p, rfl, hh k i s p h1 h2⟩

namespace Bytom

/-- A transaction with two inputs of single keys, for the examples below. -/
def exTx2 : Tx :=
  ⟨0, [⟨List.replicate 32 1, btm, 41250000000, 2, [0, 0x14] ++ exHash⟩, ⟨List.replicate 32 3, btm, 700, 0, [0, 0x14] ++ exHash⟩],
    [⟨41240000000, [0, 0x14] ++ exHash⟩]⟩

/-- A signed hash. -/
def exSig : TxHash := { hash := [], normal := some ⟨[], ⟨some (List.replicate 64 1), some (List.replicate 32 2)⟩⟩ }

theorem exSig_ok : SingleSig exSig [List.replicate 64 1, List.replicate 32 2] := ⟨rfl, _, _, _, rfl, rfl, rfl, rfl⟩

theorem exTx2_fits : exTx2.Fits := ⟨by decide, by decide, by decide, by decide, by decide, by decide, by decide⟩

end Bytom

example : Bytom.exTx2.Fits ∧ (∀ i ∈ Bytom.exTx2.ins, i.position < 128 ∧ i.program.length = 22) ∧
    List.Forall₂ SingleSig [Bytom.exSig, Bytom.exSig] [[List.replicate 64 1, List.replicate 32 2], [List.replicate 64 1, List.replicate 32 2]] ∧
    [Bytom.exSig, Bytom.exSig].length = Bytom.exTx2.ins.length :=
  ⟨Bytom.exTx2_fits, by decide, .cons Bytom.exSig_ok (.cons Bytom.exSig_ok .nil), rfl⟩

/-- C109 is false of missing signatures: with fewer signatures than inputs (but one at least) a transaction is returned all the same; the remaining
inputs have no witness. -/
theorem C109_missing_violated (H : Hashes) (t : Tx) (hf : t.Fits) (hp : ∀ i ∈ t.ins, i.position < 128) (ths : List Bytom.TxHash)
    (args : List (List Bytes)) (h : List.Forall₂ SingleSig ths args) (h1 : ths ≠ []) (hl : ths.length < t.ins.length) :
    Bytom.insertSignatures H (Hex.encode t.unsigned) ths =
      .ok (Hex.encode (t.wire (args ++ List.replicate (t.ins.length - ths.length) []))) := by
  obtain ⟨a1, a2, a3, a4, a5, a6, a7⟩ := id hf
  obtain ⟨w, ms, e1, e2⟩ := Bytom.insertLoop_some (H := H) ths t.ins args h.length_eq.symm (by omega) (by
    intro k th i a x _ z
    obtain ⟨th', y1, y2⟩ := Bytom.forall2_index h z
    rw [x] at y1; cases y1; exact .inl y2) a6
  unfold Bytom.insertSignatures
  rw [Hex.decode_encode]
  simp only [Res.bind_ok]
  rw [Tx.unsigned, Bytom.decode_wire hf hp (by simp) (Bytom.wit_nil t)]
  simp only [Res.bind_ok, Bytom.mkTx, Bytom.decoded_nil, List.length_map]
  rw [if_neg (by simpa using h1), if_neg (by omega), if_neg (by omega), e1]
  simp only [Res.bind_ok]
  rw [Bytom.toBytes_wire hf _ (by rw [List.length_append, List.length_replicate, ← h.length_eq]; omega) ms e2]
  rfl

example : ∃ ths args, List.Forall₂ SingleSig ths args ∧ ths ≠ [] ∧ ths.length < Bytom.exTx2.ins.length :=
  ⟨[Bytom.exSig], _, .cons Bytom.exSig_ok .nil, by simp, by decide⟩

/-- And with more signatures than inputs the function panics. -/
theorem C109_surplus_violated (H : Hashes) (t : Tx) (hf : t.Fits) (hp : ∀ i ∈ t.ins, i.position < 128) (ths : List Bytom.TxHash)
    (args : List (List Bytes)) (h : List.Forall₂ SingleSig ths args) (hl : t.ins.length < ths.length) :
    Bytom.insertSignatures H (Hex.encode t.unsigned) ths = .panic := by
  obtain ⟨a1, a2, a3, a4, a5, a6, a7⟩ := id hf
  have e := Bytom.insertLoop_more (H := H) ths t.ins (args.take t.ins.length) (by rw [List.length_take, ← h.length_eq]; omega) hl (by
    intro k th i a x y z
    rw [List.getElem?_take] at z
    split at z
    · obtain ⟨th', y1, y2⟩ := Bytom.forall2_index h z
      rw [x] at y1; cases y1; exact .inl y2
    · cases z) (by
    intro th hth
    obtain ⟨k, hk, rfl⟩ := List.getElem_of_mem (List.mem_of_mem_drop hth)
    have hk' : k < args.length := by rw [← h.length_eq]; exact hk
    obtain ⟨th', y1, y2⟩ := Bytom.forall2_index h (List.getElem?_eq_getElem hk')
    rw [List.getElem?_eq_getElem hk] at y1
    cases y1
    exact y2.1) a6
  unfold Bytom.insertSignatures
  rw [Hex.decode_encode]
  simp only [Res.bind_ok]
  rw [Tx.unsigned, Bytom.decode_wire hf hp (by simp) (Bytom.wit_nil t)]
  simp only [Res.bind_ok, Bytom.mkTx, Bytom.decoded_nil, List.length_map]
  rw [if_neg (by omega), if_neg (by omega), if_neg (by omega), e]
  rfl

example : ∃ ths args, List.Forall₂ SingleSig ths args ∧ Bytom.exTx2.ins.length < ths.length :=
  ⟨[Bytom.exSig, Bytom.exSig, Bytom.exSig], _, .cons Bytom.exSig_ok (.cons Bytom.exSig_ok (.cons Bytom.exSig_ok .nil)), by decide⟩

/-- The verifier panics on a transaction without signatures whose first input belongs to a single key. -/
theorem C109_unsigned_violated (H : Hashes) (verify : Bytes → Bytes → Bytes → Bool) (t : Tx) (hf : t.Fits) (hp : ∀ i ∈ t.ins, i.position < 128)
    (h22 : ∃ i, t.ins[0]? = some i ∧ i.program.length = 22) : Bytom.verifyRaw H verify (Hex.encode t.unsigned) = .panic := by
  rw [Tx.unsigned, Bytom.verify_head hf hp (by simp) (Bytom.wit_nil t), Bytom.decoded_nil]
  obtain ⟨i, hi, h22⟩ := h22
  generalize sigHash H t = f
  cases hc : t.ins with
  | nil => rw [hc] at hi; simp at hi
  | cons j js =>
    rw [hc] at hi
    simp only [List.getElem?_cons_zero, Option.some.injEq] at hi
    subst hi
    simp only [List.map_cons, Bytom.verifyLoop, Bytom.verifyIn, Bytom.mkIn]
    rw [if_neg (by omega)]

/-- The verifier does not look at whose key it is: whatever the programs of the inputs, a transaction passes with any one key that signed all inputs. -/
theorem C109_foreign_key_violated (H : Hashes) (verify : Bytes → Bytes → Bytes → Bool) (t : Tx) (hf : t.Fits)
    (hp : ∀ i ∈ t.ins, i.position < 128 ∧ i.program.length = 22) (key : Bytes) (sign : In → Bytes) (hk : key.length = 32)
    (hs : ∀ i ∈ t.ins, (sign i).length = 64 ∧ verify key (sigHash H t i) (sign i) = true) :
    Bytom.verifyRaw H verify (Hex.encode (t.wire (t.ins.map fun i => [sign i, key]))) = .ok true := by
  obtain ⟨b, v1, v2⟩ := Bytom.verify_ok (H := H) (verify := verify) hf (fun i hi => (hp i hi).1) (args := t.ins.map fun i => [sign i, key]) (by simp) (by
    intro k i a h1 h2
    rw [List.getElem?_map, h1, Option.map_some, Option.some.injEq] at h2
    have hm := List.mem_of_getElem? h1
    exact .inl ⟨(hp i hm).2, _, _, (hs i hm).1, hk, h2.symm⟩)
  rw [v1]
  have : b = true := by
    rw [v2]
    intro k i a h1 h2
    rw [List.getElem?_map, h1, Option.map_some, Option.some.injEq] at h2
    have hm := List.mem_of_getElem? h1
    exact .inl ⟨(hp i hm).2, _, _, h2.symm, (hs i hm).2⟩
  rw [this]

example : ∃ (t : Tx) (key : Bytes) (sign : In → Bytes), t.Fits ∧ (∀ i ∈ t.ins, i.position < 128 ∧ i.program.length = 22) ∧ key.length = 32 ∧
    (∀ i ∈ t.ins, (sign i).length = 64 ∧ (fun _ _ _ => true : Bytes → Bytes → Bytes → Bool) key (sigHash toyHashes t i) (sign i) = true) ∧
    ∃ i, t.ins[0]? = some i ∧ i.program.length = 22 :=
  ⟨Bytom.exTx2, List.replicate 32 9, fun _ => List.replicate 64 1, Bytom.exTx2_fits, by decide, rfl, fun _ _ => ⟨rfl, rfl⟩, _, rfl, rfl⟩

/-! ### C110: multi-signature addresses and scripts -/

/-- C110: a multi-signature address is created exactly for keys of 32 bytes and a number of signatures between one and the number of keys; script and
address are those of the keys in the given order; everything else is refused, nothing panics. -/
theorem C110_create (H : Hashes) (required : UInt8) (keys : List Bytes) (test : Bool) :
    (((∀ k ∈ keys, k.length = 32) ∧ 1 ≤ required.toNat ∧ required.toNat ≤ keys.length) →
      ∃ a, Bytom.createMultiSig H required keys test = .ok (a, Hex.encode (multiScript required.toNat keys)) ∧
        IsAddress (hrp test) (sha3 H (multiScript required.toNat keys)) a) ∧
    (¬ ((∀ k ∈ keys, k.length = 32) ∧ 1 ≤ required.toNat ∧ required.toNat ≤ keys.length) → Bytom.createMultiSig H required keys test = .err) :=
  ⟨fun ⟨h, h1, h2⟩ => Bytom.createMulti_ok H required keys test h h1 h2, Bytom.createMulti_err H required keys test⟩

example : (∀ k ∈ [List.replicate 32 1, List.replicate 32 2], List.length (k : Bytes) = 32) ∧ 1 ≤ (2 : UInt8).toNat ∧
    (2 : UInt8).toNat ≤ [List.replicate 32 1, (List.replicate 32 2 : Bytes)].length := by decide

/-- Reading a script into a hash to be signed gives back the keys and the number of signatures, for at most sixteen of them. -/
theorem C110_pad (th : Bytom.TxHash) (required : Nat) (keys : List Bytes) (h : ∀ k ∈ keys, k.length = 32) (h1 : 1 ≤ required) (h2 : required ≤ 16) :
    Bytom.padMultiSig th (Hex.encode (multiScript required keys)) =
      .ok { th with nRequired := UInt8.ofNat required, multi := keys.map (fun k => ⟨Hex.encode k, {}⟩) } := Bytom.pad_ok th required keys h h1 h2

example : (∀ k ∈ [List.replicate 32 1, List.replicate 32 2], List.length (k : Bytes) = 32) ∧ 1 ≤ 2 ∧ 2 ≤ 16 := by decide

/-! ### C111: signing for several keys -/

/-- C111, as far as it holds: for a transaction whose inputs belong to scripts requiring two of two or three keys, the first two signatures of every
input are inserted as the chain's serialisation of signatures and script; the verifier accepts the result exactly if for every input two pairs of
a signature and a key not before it match. -/
theorem C111_two_partial (H : Hashes) (verify : Bytes → Bytes → Bytes → Bool) (t : Tx) (hf : t.Fits) (hp : ∀ i ∈ t.ins, i.position < 128)
    (ths : List Bytom.TxHash) (keys args : List (List Bytes)) (hl : ths.length = t.ins.length) (hk : keys.length = t.ins.length)
    (ha : args.length = t.ins.length)
    (hs : ∀ (k : Nat) th i ks a, ths[k]? = some th → t.ins[k]? = some i → keys[k]? = some ks → args[k]? = some a →
      TwoSigs th ks a ∧ i.program = [0, 0x20] ++ sha3 H (multiScript 2 ks)) :
    Bytom.insertSignatures H (Hex.encode t.unsigned) ths = .ok (Hex.encode (t.wire args)) ∧
    ∃ b, Bytom.verifyRaw H verify (Hex.encode (t.wire args)) = .ok b ∧
      (b = true ↔ ∀ (k : Nat) i ks s1 s2, t.ins[k]? = some i → keys[k]? = some ks → args[k]? = some [s1, s2, multiScript 2 ks] →
        (ks.filter (fun p => verify p (sigHash H t i) s1)).length + (ks.tail.filter (fun p => verify p (sigHash H t i) s2)).length = 2) := by
  have hex : ∀ {k : Nat} {i : In}, t.ins[k]? = some i → ∃ th ks, ths[k]? = some th ∧ keys[k]? = some ks := by
    intro k i h1
    have hkl : k < t.ins.length := (List.getElem?_eq_some_iff.mp h1).1
    exact ⟨ths[k], keys[k], List.getElem?_eq_getElem (by omega), List.getElem?_eq_getElem (by omega)⟩
  obtain ⟨i1, i2⟩ := Bytom.insert_ok (H := H) hf hp hl ha (by
    intro k th i a h1 h2 h3
    obtain ⟨_, ks, _, h4⟩ := hex h2
    obtain ⟨g1, g2⟩ := hs k th i ks a h1 h2 h4 h3
    exact .inr ⟨ks, g1, g2⟩)
  refine ⟨i1, ?_⟩
  have h34 : ∀ {k : Nat} {i : In} {a}, t.ins[k]? = some i → args[k]? = some a → i.program.length = 34 ∧
      ∃ ks s1 s2, keys[k]? = some ks ∧ s1.length = 64 ∧ s2.length = 64 ∧ (∀ x ∈ ks, x.length = 32) ∧ (ks.length = 2 ∨ ks.length = 3) ∧
        a = [s1, s2, multiScript 2 ks] := by
    intro k i a h1 h2
    obtain ⟨th, ks, h3, h4⟩ := hex h1
    obtain ⟨⟨_, g1, g2, _, s1, s2, _, _, g3, g4, g5⟩, g6⟩ := hs k th i ks a h3 h1 h4 h2
    refine ⟨?_, ks, s1, s2, h4, g3, g4, g2, g1, g5⟩
    rw [g6, List.length_append, sha3, H.size]; rfl
  obtain ⟨b, v1, v2⟩ := Bytom.verify_ok (H := H) (verify := verify) hf hp ha (by
    intro k i a h1 h2
    obtain ⟨g0, ks, s1, s2, _, g1, g2, g3, g4, g5⟩ := h34 h1 h2
    exact .inr ⟨g0, s1, s2, ks, g1, g2, g3, g4, g5⟩)
  refine ⟨b, v1, v2.trans ?_⟩
  constructor
  · intro hh k i ks s1 s2 h1 h2 h3
    obtain ⟨g0, ks', _, _, g6, _, _, g3, g4, _⟩ := h34 h1 h3
    rw [h2] at g6; cases g6
    rcases hh k i _ h1 h3 with ⟨hc, _⟩ | ⟨_, x1, x2, xs, e, hx, _, hv⟩
    · omega
    · simp only [List.cons.injEq, and_true] at e
      obtain ⟨rfl, rfl, e⟩ := e
      rw [Bytom.script_inj g3 hx e]; exact hv
  · intro hh k i a h1 h2
    obtain ⟨g0, ks, s1, s2, g6, g1, g2, g3, g4, rfl⟩ := h34 h1 h2
    exact .inr ⟨g0, s1, s2, ks, rfl, g3, g4, hh k i ks s1 s2 h1 g6 h2⟩

namespace Bytom

/-- Two keys, two signatures and a transaction spending from their script, for the examples below. -/
def exKeys : List Bytes := [List.replicate 32 1, List.replicate 32 2]

def exMulti : TxHash :=
  { hash := [], nRequired := 2, multi := [⟨[], ⟨some (List.replicate 64 1), some (List.replicate 32 1)⟩⟩, ⟨[], ⟨some (List.replicate 64 2), some (List.replicate 32 2)⟩⟩] }

def exTx3 (H : Hashes) (required : Nat) : Tx :=
  ⟨0, [⟨List.replicate 32 1, btm, 41250000000, 2, [0, 0x20] ++ Spec.Bytom.sha3 H (multiScript required exKeys)⟩], [⟨41240000000, [0, 0x14] ++ exHash⟩]⟩

theorem exTx3_fits (H : Hashes) (required : Nat) : (exTx3 H required).Fits := by
  refine ⟨by simp [exTx3], by simp [exTx3], by simp [exTx3], by simp [exTx3], by simp [exTx3], ?_, ?_⟩
  · intro i hi
    simp only [exTx3, List.mem_singleton] at hi
    subst hi
    refine ⟨rfl, rfl, by norm_num, by norm_num, .inr ?_⟩
    simp only [List.length_append, Spec.Bytom.sha3, H.size]; rfl
  · intro o ho
    simp only [exTx3, List.mem_singleton] at ho
    subst ho
    exact ⟨by norm_num, .inl rfl⟩

theorem exMulti_ok : TwoSigs exMulti exKeys [List.replicate 64 1, List.replicate 64 2, multiScript 2 exKeys] := by
  refine ⟨rfl, .inl rfl, by decide, by decide, _, _, [], by rfl, rfl, rfl, rfl⟩

end Bytom

example (H : Hashes) : (Bytom.exTx3 H 2).Fits ∧ (∀ i ∈ (Bytom.exTx3 H 2).ins, i.position < 128) ∧
    ∃ args, TwoSigs Bytom.exMulti Bytom.exKeys args ∧ ∃ i, (Bytom.exTx3 H 2).ins = [i] ∧ i.program = [0, 0x20] ++ sha3 H (multiScript 2 Bytom.exKeys) :=
  ⟨Bytom.exTx3_fits H 2, by simp [Bytom.exTx3], _, Bytom.exMulti_ok, _, rfl, rfl⟩

/-- C111 is false of one signer: a single signature by the second of two keys, given twice, passes for both. -/
theorem C111_one_signer_violated (H : Hashes) (verify : Bytes → Bytes → Bytes → Bool) (t : Tx) (hf : t.Fits) (i : In) (hi : t.ins = [i])
    (hp : i.position < 128) (h34 : i.program.length = 34) (k1 k2 s : Bytes) (h1 : k1.length = 32) (h2 : k2.length = 32) (hs : s.length = 64)
    (v1 : verify k1 (sigHash H t i) s = false) (v2 : verify k2 (sigHash H t i) s = true) :
    Bytom.verifyRaw H verify (Hex.encode (t.wire [[s, s, multiScript 2 [k1, k2]]])) = .ok true := by
  have hks : ∀ k ∈ [k1, k2], k.length = 32 := by
    intro k hk
    simp only [List.mem_cons, List.not_mem_nil, or_false] at hk
    rcases hk with rfl | rfl <;> assumption
  obtain ⟨b, e1, e2⟩ := Bytom.verify_ok (H := H) (verify := verify) hf (args := [[s, s, multiScript 2 [k1, k2]]])
    (by rw [hi]; simpa using hp) (by rw [hi]; rfl) (by
    intro k j a x y
    rw [hi] at x
    cases k with
    | zero =>
      simp only [List.getElem?_cons_zero, Option.some.injEq] at x y
      subst x; subst y
      exact .inr ⟨h34, s, s, [k1, k2], hs, hs, hks, .inl rfl, rfl⟩
    | succ k => simp at x)
  rw [e1]
  congr 1
  rw [e2]
  intro k j a x y
  rw [hi] at x
  cases k with
  | zero =>
    simp only [List.getElem?_cons_zero, Option.some.injEq] at x y
    subst x; subst y
    refine .inr ⟨h34, s, s, [k1, k2], rfl, hks, .inl rfl, ?_⟩
    simp [v1, v2]
  | succ k => simp at x

example : ∃ (verify : Bytes → Bytes → Bytes → Bool) (t : Tx) (i : In) (k1 k2 s : Bytes), t.Fits ∧ t.ins = [i] ∧ i.position < 128 ∧
    i.program.length = 34 ∧ k1.length = 32 ∧ k2.length = 32 ∧ s.length = 64 ∧ verify k1 (sigHash toyHashes t i) s = false ∧
    verify k2 (sigHash toyHashes t i) s = true :=
  ⟨fun k _ _ => decide (k = List.replicate 32 2), Bytom.exTx3 toyHashes 2, _, List.replicate 32 1, List.replicate 32 2, List.replicate 64 0,
    Bytom.exTx3_fits _ _, rfl, by decide, by
      simp only [List.length_append, Spec.Bytom.sha3, toyHashes.size]; rfl, rfl, rfl, rfl, by decide, by decide⟩

/-- C111 is false of scripts requiring one signature: what is inserted is not the serialisation of signature and script. -/
theorem C111_one_of_violated (H : Hashes) (t : Tx) (hf : t.Fits) (i : In) (hi : t.ins = [i]) (hp : i.position < 128) (th : Bytom.TxHash)
    (keys : List Bytes) (s : Bytes) (more : List Bytes) (h1 : th.nRequired = 1) (h2 : keys.length = 2 ∨ keys.length = 3)
    (h3 : ∀ k ∈ keys, k.length = 32) (h4 : th.multi.map (fun m => m.sigPub.pubkey) = keys.map some)
    (h5 : th.multi.filterMap (fun m => m.sigPub.signature) = s :: more) (h6 : s.length = 64)
    (h7 : i.program = [0, 0x20] ++ sha3 H (multiScript 1 keys)) :
    ∃ out, Bytom.insertSignatures H (Hex.encode t.unsigned) [th] = .ok out ∧ out ≠ Hex.encode (t.wire [[s, multiScript 1 keys]]) := by
  have hsc := Bytom.script_length 1 keys h3
  have hins : Bytom.InFits i := hf.2.2.2.2.2.1 i (by rw [hi]; simp)
  have hg : ∀ ms : List Bytom.MultiTx, ms.filterMap (fun m => m.sigPub.signature) = s :: more → Bytom.gatherSigs 1 0 ms = .ok (0x40 :: s, 1) := by
    intro ms
    induction ms with
    | nil => intro h; simp at h
    | cons m ms ih =>
      intro h
      unfold Bytom.gatherSigs
      cases hm : m.sigPub.signature with
      | none =>
        simp only [List.filterMap_cons, hm] at h
        exact ih h
      | some x =>
        simp only [List.filterMap_cons, hm, List.cons.injEq] at h
        obtain ⟨rfl, h⟩ := h
        simp only
        rw [if_neg (by simp [h6]), if_pos (by decide)]
  set sc := multiScript 1 keys with hscdef
  have hw : Bytom.getMultiSigBytes H th = .ok (UInt8.ofNat (67 + sc.length) :: 1 :: 3 :: 0x40 :: (s ++ UInt8.ofNat sc.length :: sc),
      [0, 0x20] ++ sha3 H sc) := by
    unfold Bytom.getMultiSigBytes
    rw [h1, if_neg (by decide), Bytom.multiKeys_ok _ keys h4 h3]
    simp only [Res.bind_ok]
    rw [Bytom.signScript_ok 1 keys h3, hg _ h5]
    simp only [Res.bind_ok]
    rw [if_neg (by decide)]
    have e : (1 : UInt8).toNat = 1 := rfl
    rw [e, ← hscdef]
    have hlen : ([1, 3] ++ 0x40 :: s ++ UInt8.ofNat sc.length :: sc).length - 1 = 67 + sc.length := by
      simp [h6]; omega
    rw [hlen]
    simp only [List.cons_append, List.nil_append]
    rfl
  have hone : Bytom.insertOne H th [Bytom.mkIn i] = .ok (({ Bytom.mkIn i with sigPub := none, multiSig := (some
      (UInt8.ofNat (67 + sc.length) :: 1 :: 3 :: 0x40 :: (s ++ UInt8.ofNat sc.length :: sc))) } : Bytom.TxIn), []) := by
    unfold Bytom.insertOne
    rw [if_pos (by rw [h1]; decide), hw]
    simp only [Res.bind_ok]
    rw [← h7]
    rfl
  obtain ⟨a1, a2, a3, a4, a5, a6, a7⟩ := id hf
  have hout : ∀ o ∈ t.outs, (Bytom.mkOut o).toBytes = .ok (outWire o) := fun o ho => Bytom.mkOut_toBytes (a7 o ho)
  have hpos : ∀ j ∈ t.ins, j.position < 128 := by rw [hi]; simpa using hp
  refine ⟨Hex.encode ([7] ++ varint 1 ++ varint t.time ++ [1] ++ ([1] ++ str ([1] ++ str (Bytom.commit i)) ++
    (UInt8.ofNat (67 + sc.length) :: 1 :: 3 :: 0x40 :: (s ++ UInt8.ofNat sc.length :: sc))) ++ varint t.outs.length ++ t.outs.flatMap outWire), ?_, ?_⟩
  · unfold Bytom.insertSignatures
    rw [Hex.decode_encode]
    simp only [Res.bind_ok]
    rw [Tx.unsigned, Bytom.decode_wire hf hpos (by simp) (Bytom.wit_nil t)]
    simp only [Res.bind_ok, Bytom.mkTx, Bytom.decoded_nil, List.length_map]
    rw [if_neg (by simp), if_neg (by omega), if_neg (by omega)]
    have hloop : Bytom.insertLoop H [th] (t.ins.map Bytom.mkIn) = .ok [{ Bytom.mkIn i with sigPub := none, multiSig := (some
        (UInt8.ofNat (67 + sc.length) :: 1 :: 3 :: 0x40 :: (s ++ UInt8.ofNat sc.length :: sc))) }] := by
      rw [hi, List.map_cons, List.map_nil]
      unfold Bytom.insertLoop
      rw [hone]
      rfl
    rw [hloop]
    simp only [Res.bind_ok]
    unfold Bytom.Transaction.toBytes
    have p1 := Bytom.varint_pos t.time
    have p2 := Bytom.varint_pos 1
    simp only [List.length_map, List.length_singleton]
    rw [if_neg (by omega), if_neg (by omega), if_neg (by omega), if_neg (by omega)]
    simp only [Bytom.concatBytes]
    rw [Bytom.toBytes_eq hins, Bytom.concat_ok Bytom.TxOut.toBytes Bytom.mkOut outWire t.outs hout, Bytom.varint_small a4]
    simp only [Res.bind_ok, List.append_nil]
    simp
  · intro e
    have e' := congrArg Hex.decode e
    rw [Hex.decode_encode, Hex.decode_encode] at e'
    have e2 := Res.ok.inj e'
    have hwire : t.wire [[s, sc]] = [7] ++ varint 1 ++ varint t.time ++ [1] ++ ([1] ++ str ([1] ++ str (Bytom.commit i)) ++
        (UInt8.ofNat (67 + sc.length) :: 1 :: 2 :: 0x40 :: (s ++ UInt8.ofNat sc.length :: sc))) ++ varint t.outs.length ++ t.outs.flatMap outWire := by
      have hst : str (varint [s, sc].length ++ [s, sc].flatMap str) =
          UInt8.ofNat (67 + sc.length) :: 1 :: 2 :: 0x40 :: (s ++ UInt8.ofNat sc.length :: sc) := by
        have q : [s, sc].flatMap str = UInt8.ofNat 64 :: (s ++ UInt8.ofNat sc.length :: sc) := by
          simp only [List.flatMap_cons, List.flatMap_nil, List.append_nil]
          rw [Bytom.str_small (b := s) (by omega), Bytom.str_small (b := sc) (by omega), h6]
          simp
        rw [q, Bytom.varint_small (by simp)]
        unfold str
        have hlen : ([UInt8.ofNat [s, sc].length] ++ UInt8.ofNat 64 :: (s ++ UInt8.ofNat sc.length :: sc)).length = 67 + sc.length := by
          simp [h6]; omega
        rw [hlen, Bytom.varint_two (by omega) (by omega)]
        simp
      unfold Tx.wire
      rw [hi]
      simp only [List.zipWith_cons_cons, List.zipWith_nil_left, List.flatten_cons, List.flatten_nil, List.append_nil, Bytom.inWire_eq, hst]
      rw [Bytom.varint_small (n := [i].length) (by simp)]
      simp
    rw [hwire] at e2
    simp only [List.append_assoc, List.append_cancel_left_eq, List.cons_append, List.cons.injEq] at e2
    simp at e2

example (H : Hashes) : ∃ (th : Bytom.TxHash) (s : Bytes), (Bytom.exTx3 H 1).Fits ∧ th.nRequired = 1 ∧
    th.multi.map (fun m => m.sigPub.pubkey) = Bytom.exKeys.map some ∧ th.multi.filterMap (fun m => m.sigPub.signature) = [s] ∧ s.length = 64 :=
  ⟨{ hash := [], nRequired := 1, multi := [⟨[], ⟨some (List.replicate 64 1), some (List.replicate 32 1)⟩⟩, ⟨[], ⟨none, some (List.replicate 32 2)⟩⟩] },
    List.replicate 64 1, Bytom.exTx3_fits H 1, rfl, rfl, rfl, rfl⟩

/-! ### C112: receivers -/

namespace Bytom

theorem check_all {test : Bool} : ∀ (vouts : List Vout), checkAddresses test vouts = .ok () → ∀ v ∈ vouts, slice v.address 0 2 = .ok (hrpOf test)
  | [], _ => by simp
  | v :: vs, h => by
    unfold checkAddresses at h
    obtain ⟨p, hp, h⟩ := Res.bind_eq_ok.mp h
    split_ifs at h with hc
    have hpe := not_not.mp hc
    subst hpe
    intro w hw
    rcases List.mem_cons.mp hw with rfl | hw
    · exact hp
    · exact check_all vs h w hw

theorem outs_all : ∀ (vouts : List Vout) (os : List TxOut), newTxOuts vouts = .ok os → ∀ v ∈ vouts, ∃ c, outProgram v.address = .ok c
  | [], _, _ => by simp
  | v :: vs, os, h => by
    unfold newTxOuts at h
    obtain ⟨o, ho, h⟩ := Res.bind_eq_ok.mp h
    obtain ⟨os', hos, h⟩ := Res.bind_eq_ok.mp h
    intro w hw
    rcases List.mem_cons.mp hw with rfl | hw
    · unfold newTxOut at ho
      obtain ⟨c, hc, _⟩ := Res.bind_eq_ok.mp ho
      exact ⟨c, hc⟩
    · exact outs_all vs os' hos w hw

theorem toUpper_ne (c : UInt8) (h : 0x61 ≤ c ∧ c ≤ 0x7a) : Bech32m.toUpper c ≠ c := by
  revert c
  have : ∀ c : UInt8, (0x61 ≤ c ∧ c ≤ 0x7a) → Bech32m.toUpper c ≠ c := by
    intro c
    revert c
    apply Hex.u8_forall
    decide +kernel
  exact this

end Bytom

/-- C112, as far as it holds: every receiver of a created transaction is a text with a valid checksum for version 0 and 20 or 32 bytes, and its
human-readable part begins with that of the network. -/
theorem C112_receivers_partial (vins : List Bytom.Vin) (vouts : List Bytom.Vout) (time : UInt64) (test : Bool) (out : Bytes)
    (h : Bytom.createEmpty vins vouts time test = .ok out) :
    ∀ v ∈ vouts, ∃ rest p, IsAddress (hrp test ++ rest) p v.address ∧ (p.length = 20 ∨ p.length = 32) := by
  unfold Bytom.createEmpty at h
  obtain ⟨_, hc, h⟩ := Res.bind_eq_ok.mp h
  obtain ⟨t, ht, _⟩ := Res.bind_eq_ok.mp h
  unfold Bytom.newEmptyTransaction at ht
  split_ifs at ht
  all_goals obtain ⟨is, _, ht⟩ := Res.bind_eq_ok.mp ht
  · cases ht
  obtain ⟨os, hos, _⟩ := Res.bind_eq_ok.mp ht
  intro v hv
  have hsl := Bytom.check_all vouts hc v hv
  obtain ⟨c, hcc⟩ := Bytom.outs_all vouts os hos v hv
  obtain ⟨_, hl2, he⟩ := Bytom.hrpOf_ok test
  -- the text begins with the two letters
  have hlen : 2 ≤ v.address.length := by
    by_contra hcon
    unfold slice at hsl
    rw [if_neg (by omega)] at hsl
    cases hsl
  have htake : v.address.take 2 = hrp test := by
    rw [slice_ok (by omega) hlen] at hsl
    rw [← he]
    simpa using hsl
  unfold Bytom.outProgram at hcc
  obtain ⟨⟨ver, p⟩, hd, hcc⟩ := Res.bind_eq_ok.mp hcc
  simp only at hcc
  split_ifs at hcc with q1
  have q1' := not_not.mp q1
  subst q1'
  -- it is in lower case
  obtain ⟨x, y, r, hxy⟩ : ∃ x y r, v.address = x :: y :: r := by
    rcases hh : v.address with _ | ⟨x, _ | ⟨y, r⟩⟩
    · rw [hh] at hlen; simp at hlen
    · rw [hh] at hlen; simp at hlen
    · exact ⟨x, y, r, rfl⟩
  have hx : (0x61 : UInt8) ≤ x ∧ x ≤ 0x7a ∧ y ≠ 0x31 := by
    rw [hxy] at htake
    cases test
    · have : [x, y] = asc "bm" := htake
      have : x = 0x62 ∧ y = 0x6d := by
        have e : asc "bm" = [0x62, 0x6d] := by decide
        rw [e] at this; simpa using this
      obtain ⟨rfl, rfl⟩ := this
      decide
    · have : [x, y] = asc "tm" := htake
      have : x = 0x74 ∧ y = 0x6d := by
        have e : asc "tm" = [0x74, 0x6d] := by decide
        rw [e] at this; simpa using this
      obtain ⟨rfl, rfl⟩ := this
      decide
  have hlow : v.address.map Bech32m.toLower = v.address := by
    have hd' := hd
    unfold Bytom.decodeSegWitAddress at hd'
    obtain ⟨⟨hr, dd⟩, hb, _⟩ := Res.bind_eq_ok.mp hd'
    unfold Bytom.bech32Decode at hb
    split_ifs at hb with c1 c2 c3
    by_contra hne
    apply c3
    refine ⟨fun e => hne e.symm, ?_⟩
    rw [hxy]
    intro e
    have := (List.cons.inj e).1
    exact Bytom.toUpper_ne x ⟨hx.1, hx.2.1⟩ this.symm
  obtain ⟨hr, ha, hp⟩ := Bytom.address_sound hlow hd
  have hpre : ∃ rest, hr = hrp test ++ rest := by
    obtain ⟨syms, check, _, _, _, _, _, hrem, htext⟩ := id ha
    have h1 : asc "1" = [0x31] := by decide
    rw [h1] at htext
    rcases hr with _ | ⟨a, _ | ⟨b, r'⟩⟩
    · exfalso
      rw [hxy] at htext
      simp only [List.nil_append, List.cons_append, List.cons.injEq] at htext
      obtain ⟨q2, _⟩ := htext
      rw [q2] at hx
      exact absurd hx.1 (by decide)
    · exfalso
      rw [hxy] at htext
      simp only [List.nil_append, List.cons_append, List.cons.injEq] at htext
      exact hx.2.2 htext.2.1
    · refine ⟨r', ?_⟩
      rw [htext] at htake
      have : [a, b] = hrp test := by simpa using htake
      rw [← this]; rfl
  obtain ⟨rest, hrest⟩ := hpre
  exact ⟨rest, p, hrest ▸ ha, hp⟩

example : ∃ vins vouts out, Bytom.createEmpty vins vouts 0 false = .ok out ∧ vouts ≠ [] := by
  obtain ⟨vins, vouts, h⟩ := Bytom.exRequest
  refine ⟨vins, vouts, _, C107_layout vins vouts 0 false _ h Bytom.exTx_fits, ?_⟩
  rintro rfl
  cases h.2.1

/-- C112 is false of other human-readable parts: for every part that only begins like that of the network there are addresses of every program hash,
and a transaction paying to them is created. -/
theorem C112_foreign_violated (vins : List Bytom.Vin) (time : UInt64) (test : Bool) (t : Tx) (h1 : List.Forall₂ InOf vins t.ins)
    (h2 : time.toNat = t.time) (hf : t.Fits) (p : Bytes) (hp : p.length = 20 ∨ p.length = 32) (amount : UInt64)
    (ho : t.outs = [⟨amount.toNat, [0, UInt8.ofNat p.length] ++ p⟩])
    (rest : Bytes) (hr : rest.length ≤ 28) (hlow : ∀ c ∈ rest, 0x61 ≤ c ∧ c ≤ 0x7a) :
    ∃ a, IsAddress (hrp test ++ rest) p a ∧ Bytom.createEmpty vins [⟨a, amount⟩] time test = .ok (Hex.encode t.unsigned) := by
  obtain ⟨hh, hl, he⟩ := Bytom.hrpOf_ok test
  have hh' : Bech32m.IsHrp (Bytom.hrpOf test ++ rest) := by
    refine ⟨by intro e; have := congrArg List.length e; simp [hl] at this, ?_⟩
    intro c hc
    rcases List.mem_append.mp hc with hc | hc
    · exact hh.2 c hc
    · have := hlow c hc
      have hall : ∀ c : UInt8, (0x61 ≤ c ∧ c ≤ 0x7a) → 33 ≤ c ∧ c ≤ 126 ∧ Bech32m.toLower c = c := by
        intro c; revert c; apply Hex.u8_forall; decide +kernel
      exact hall c this
  have hlen : (Bytom.hrpOf test ++ rest).length ≤ 30 := by rw [List.length_append]; omega
  obtain ⟨a, _, ha⟩ := Bytom.encode_address _ p hh' hlen hp
  obtain ⟨d1, d2, d3⟩ := Bytom.decode_address _ p a hh' hlen hp ha
  refine ⟨a, he ▸ ha, ?_⟩
  have hamt : amount.toNat < 2 ^ 56 := (hf.2.2.2.2.2.2 ⟨amount.toNat, [0, UInt8.ofNat p.length] ++ p⟩ (by rw [ho]; simp)).1
  apply Bytom.create_made h1 _ h2 hf
  rw [ho]
  refine .cons ⟨?_, ?_⟩ .nil
  · unfold Bytom.newTxOut Bytom.outProgram
    simp only
    rw [d1]
    simp only [Res.bind_ok]
    rw [if_neg (by simp), if_neg (by omega), Bytom.uint64ToUvarint_ok hamt]
    rfl
  · rw [List.length_append, hl] at d3
    rw [slice_ok (by omega) (show 2 ≤ a.length by omega)]
    have := congrArg (List.take 2) d2
    rw [List.take_take, List.length_append, hl, Nat.min_eq_left (by omega), List.take_append_of_le_length (by omega)] at this
    rw [List.drop_zero, this, List.take_of_length_le (by omega)]

example : ∃ (t : Tx) (p : Bytes) (amount : UInt64), t.Fits ∧ (p.length = 20 ∨ p.length = 32) ∧
    t.outs = [⟨amount.toNat, [0, UInt8.ofNat p.length] ++ p⟩] ∧ ∀ c ∈ asc "x", (0x61 : UInt8) ≤ c ∧ c ≤ 0x7a :=
  ⟨Bytom.exTx, Bytom.exHash, 41240000000, Bytom.exTx_fits, .inl rfl, rfl, by decide⟩

/-- An address of fewer than two characters makes the function panic. -/
theorem C112_short_violated (vins : List Bytom.Vin) (a : Bytes) (amount : UInt64) (vouts : List Bytom.Vout) (time : UInt64) (test : Bool)
    (h : a.length < 2) : Bytom.createEmpty vins (⟨a, amount⟩ :: vouts) time test = .panic := by
  unfold Bytom.createEmpty Bytom.checkAddresses slice
  rw [if_neg (by simp only; omega)]
  rfl

end Verif
