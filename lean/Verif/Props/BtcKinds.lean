import Verif.Props.BtcTx

/-! C20: what a signed transaction is decoded to when inputs of the two kinds that are not read back are among the others. -/

namespace Verif
open Verif.Spec Verif.Btc

namespace Btc

/-- A P2SH-P2WPKH input as the package signs it: the witness program of 22 bytes, and a signature behind its length with a key. -/
structure NestedIn (witness : Bool) (i : TxIn) : Prop where
  txid : i.txid.length = 32
  vout : i.vout.length = 4
  sequence : i.sequence.length = 4
  kind : i.inType = .p2wpkh
  inWitness : witness = true
  noMulti : i.scriptMulti = []
  program : i.scriptPub.length = 22
  sig : ∃ n s, i.scriptSig = n :: s ∧ s.length = n.toNat + 34

/-- A P2SH multisig input with an unlocking script of 109 to 252 bytes behind its length. -/
structure SmallMultiIn (segwitOn witness : Bool) (i : TxIn) : Prop where
  txid : i.txid.length = 32
  vout : i.vout.length = 4
  sequence : i.sequence.length = 4
  kind : i.inType = .multi
  noWitness : witness = false
  off : segwitOn = false
  noPub : i.scriptPub = []
  noSig : i.scriptSig = []
  script : ∃ s : Bytes, i.scriptMulti = UInt8.ofNat s.length :: s ∧ 0x6d ≤ s.length ∧ s.length ≤ 0xfc

/-- Inputs that are read back, and the two kinds that are not. -/
def KnownIn (segwitOn witness : Bool) (i : TxIn) : Prop := GoodIn segwitOn witness i ∨ NestedIn witness i ∨ SmallMultiIn segwitOn witness i

/-- What an input is read as: the push byte stays before the witness program of P2SH-P2WPKH, and the length of a short multisig script is lost. -/
def asRead (i : TxIn) : TxIn :=
  match i.inType with
  | .p2wpkh => { i with scriptPub := 0x16 :: i.scriptPub }
  | .multi => if i.scriptPub = [] ∧ i.scriptMulti.head? ≠ some 0xfd then { i with scriptMulti := i.scriptMulti.tail } else i
  | _ => i

/-- What is read before the witness data. -/
def bare (i : TxIn) : TxIn :=
  match i.inType with
  | .p2wpkh => { asRead i with scriptSig := [] }
  | _ => strip (asRead i)

theorem asRead_good {seg w : Bool} {i : TxIn} (g : GoodIn seg w i) : asRead i = i := by
  rcases g.script with ⟨h1, _⟩ | ⟨h1, _⟩ | ⟨h1, _⟩ | ⟨h1, _, _, _, _, s, h2, _⟩ | ⟨h1, _, _, _, _, s, h2, _⟩
  · simp [asRead, h1]
  · simp [asRead, h1]
  · simp [asRead, h1]
  · simp [asRead, h1, h2]
  · simp [asRead, h1, h2]

theorem bare_good {seg w : Bool} {i : TxIn} (g : GoodIn seg w i) : bare i = strip i := by
  unfold bare
  rw [asRead_good g]
  rcases g.script with ⟨h1, _⟩ | ⟨h1, _⟩ | ⟨h1, _⟩ | ⟨h1, _⟩ | ⟨h1, _⟩ <;> simp [h1]

theorem small_head {n : Nat} (h : n ≤ 0xfc) : UInt8.ofNat n ≠ 0xfd := u8_ofNat_ne (by omega) (by show n ≠ 0xfd; omega)

theorem asRead_small {seg w : Bool} {i : TxIn} (g : SmallMultiIn seg w i) : ∃ s : Bytes, i.scriptMulti = UInt8.ofNat s.length :: s ∧
    0x6d ≤ s.length ∧ s.length ≤ 0xfc ∧ asRead i = { i with scriptMulti := s } ∧ bare i = asRead i := by
  obtain ⟨s, h1, h2, h3⟩ := g.script
  have e : asRead i = { i with scriptMulti := s } := by
    simp only [asRead, g.kind, g.noPub, h1, List.head?_cons, Option.some.injEq, ne_eq, small_head h3, not_false_eq_true, and_self, if_true, List.tail_cons]
  refine ⟨s, h1, h2, h3, e, ?_⟩
  unfold bare
  simp only [g.kind]
  rw [e]
  simp [strip, g.kind, g.noPub]

theorem KnownIn.sizes {seg w : Bool} {i : TxIn} (g : KnownIn seg w i) : i.txid.length = 32 ∧ i.vout.length = 4 ∧ i.sequence.length = 4 := by
  rcases g with g | g | g <;> exact ⟨g.txid, g.vout, g.sequence⟩

theorem encodeIn_kinds {seg w : Bool} {i : TxIn} (g : KnownIn seg w i) :
    encodeIn seg i = .ok (i.txid ++ i.vout ++ unlockBytes seg i ++ i.sequence) := by
  obtain ⟨h1, h2, h3⟩ := g.sizes
  unfold encodeIn
  rw [if_neg (by simp [h1, h2, h3])]

theorem decodeIn_of {w : Bool} {seg : Bool} {i r : TxIn} {spare : Nat} {rest : Bytes} (h1 : i.txid.length = 32) (h2 : i.vout.length = 4) (h3 : i.sequence.length = 4)
    (hr : r.txid = i.txid ∧ r.vout = i.vout ∧ r.sequence = i.sequence)
    (hu : ∃ x b, unlockBytes seg i = x :: b ∧ decodeUnlock w spare x (b ++ (i.sequence ++ rest)) = .ok (⟨r.inType, r.scriptPub, r.scriptSig, r.scriptMulti⟩, i.sequence ++ rest)) :
    decodeIn w spare (i.txid ++ i.vout ++ unlockBytes seg i ++ i.sequence ++ rest) = .ok (r, rest) := by
  obtain ⟨x, b, hx, hd⟩ := hu
  unfold decodeIn
  rw [hx]
  simp only [List.append_assoc, List.cons_append]
  rw [takeN_append _ _ h1]
  simp only [Res.bind_ok]
  rw [takeN_append _ _ h2]
  simp only [Res.bind_ok, take1, hd, takeSequence]
  rw [if_neg (by simp [h3]), List.take_left' h3, List.drop_left' h3]
  simp only [Res.bind_ok]
  rw [← hr.1, ← hr.2.1, ← hr.2.2]

theorem decodeIn_kinds {seg w : Bool} {i : TxIn} (g : KnownIn seg w i) (spare : Nat) (rest : Bytes) :
    decodeIn w spare (i.txid ++ i.vout ++ unlockBytes seg i ++ i.sequence ++ rest) = .ok (bare i, rest) := by
  rcases g with g | g | g
  · rw [bare_good g]
    exact decodeIn_good g spare rest
  · have e : bare i = { i with scriptPub := 0x16 :: i.scriptPub, scriptSig := [] } := by simp [bare, asRead, g.kind]
    rw [e]
    refine decodeIn_of g.txid g.vout g.sequence ⟨rfl, rfl, rfl⟩ ⟨0x17, 0x16 :: i.scriptPub, by simp [unlockBytes, g.kind], ?_⟩
    unfold decodeUnlock
    rw [if_neg (by decide), if_pos rfl, g.inWitness, takeN_append _ _ (by simp [g.program])]
    simp [g.kind, g.noMulti]
  · obtain ⟨s, h1, h2, h3, e1, e2⟩ := asRead_small g
    rw [e2, e1]
    refine decodeIn_of g.txid g.vout g.sequence ⟨rfl, rfl, rfl⟩ ⟨UInt8.ofNat s.length, s, by simp [unlockBytes, g.kind, g.off, h1], ?_⟩
    have hn : (UInt8.ofNat s.length).toNat = s.length := by simp; omega
    unfold decodeUnlock
    rw [if_neg (u8_ofNat_ne0 (by omega) (by omega)), if_neg (u8_ofNat_ne (by omega) (by show s.length ≠ 0x17; omega)),
      if_neg (u8_ofNat_ne (by omega) (by show s.length ≠ 0x23; omega)),
      if_neg (by rw [UInt8.le_iff_toNat_le, hn]; show ¬ s.length ≤ 0x6c; omega), g.noWitness, if_neg (by simp), if_neg (small_head h3),
      if_neg (by rw [gt_iff_lt, UInt8.lt_iff_toNat_lt, hn]; show ¬ 0xfd < s.length; omega), takeN_append _ _ hn.symm]
    simp [g.kind, g.noPub, g.noSig]

theorem decodeIns_kinds {seg w : Bool} (spare : Nat) : ∀ (l : List TxIn), (∀ i ∈ l, KnownIn seg w i) → ∀ rest,
    decodeIns w spare l.length
      ((l.map (fun i => i.txid ++ i.vout ++ unlockBytes seg i ++ i.sequence)).flatten ++ rest) = .ok (l.map bare, rest)
  | [], _, rest => rfl
  | i :: l, h, rest => by
    rw [List.length_cons, decodeIns, List.map_cons, List.flatten_cons, List.append_assoc,
      decodeIn_kinds (h i (by simp)), Res.bind_ok]
    simp only
    rw [decodeIns_kinds spare l (fun j hj => h j (by simp [hj])), Res.bind_ok]
    rfl

theorem encodeWitness_kinds {seg : Bool} {i : TxIn} (g : KnownIn seg true i) : encodeWitness i = .ok (witnessBytes i) := by
  rcases g with g | g | g
  · exact encodeWitness_good g
  · simp [encodeWitness, witnessBytes, g.kind]
  · have := g.noWitness
    simp at this

theorem decodeWitness_kinds {seg : Bool} {i : TxIn} (g : KnownIn seg true i) (rest : Bytes) :
    decodeWitness seg (bare i) (witnessBytes i ++ rest) = .ok (asRead i, rest) := by
  rcases g with g | g | g
  · rw [bare_good g, asRead_good g]
    exact decodeWitness_good g rest
  · obtain ⟨n, s, h1, h2⟩ := g.sig
    have e1 : bare i = { i with scriptPub := 0x16 :: i.scriptPub, scriptSig := [] } := by simp [bare, asRead, g.kind]
    have e2 : asRead i = { i with scriptPub := 0x16 :: i.scriptPub } := by simp [asRead, g.kind]
    rw [e1, e2]
    unfold decodeWitness witnessBytes
    simp only [g.kind, List.cons_append, take1, Res.bind_ok, h1]
    rw [if_neg (by simp), ← List.cons_append, takeN_append _ _ (by simp [h2])]
    simp only [Res.bind_ok]
  · have := g.noWitness
    simp at this

theorem decodeWitnesses_kinds {seg : Bool} : ∀ (l : List TxIn), (∀ i ∈ l, KnownIn seg true i) → ∀ rest,
    decodeWitnesses seg (l.map bare) ((l.map witnessBytes).flatten ++ rest) = .ok (l.map asRead, rest)
  | [], _, rest => rfl
  | i :: l, h, rest => by
    rw [List.map_cons, List.map_cons, List.flatten_cons, List.append_assoc, decodeWitnesses,
      decodeWitness_kinds (h i (by simp)), Res.bind_ok]
    simp only
    rw [decodeWitnesses_kinds l (fun j hj => h j (by simp [hj])), Res.bind_ok]
    rfl

theorem bare_eq {seg : Bool} {i : TxIn} (g : KnownIn seg false i) : bare i = asRead i := by
  rcases g with g | g | g
  · rw [bare_good g, asRead_good g]
    exact strip_good g
  · have := g.inWitness
    simp at this
  · obtain ⟨s, _, _, _, _, e⟩ := asRead_small g
    exact e

/-- Transactions of such inputs. -/
structure KnownTx (segwitOn : Bool) (t : Tx) : Prop where
  version : t.version = leBytes 4 2
  lockTime : t.lockTime.length = 4
  insPos : 1 ≤ t.vins.length
  insLe : t.vins.length ≤ 255
  outsPos : 1 ≤ t.vouts.length
  outsLe : t.vouts.length ≤ 255
  ins : ∀ i ∈ t.vins, KnownIn segwitOn t.witness i
  outs : ∀ o ∈ t.vouts, GoodOut o

/-- Reading changes exactly the inputs of the two other kinds. -/
theorem asRead_iff {seg w : Bool} {i : TxIn} (g : KnownIn seg w i) : asRead i = i ↔ ¬ NestedIn w i ∧ ¬ SmallMultiIn seg w i := by
  have nested : NestedIn w i → asRead i ≠ i := by
    intro g h
    have := congrArg (fun j => j.scriptPub.length) h
    simp [asRead, g.kind] at this
  have small : SmallMultiIn seg w i → asRead i ≠ i := by
    intro g h
    obtain ⟨s, h1, _, _, e, _⟩ := asRead_small g
    have := congrArg (fun j => j.scriptMulti.length) h
    rw [e] at this
    simp [h1] at this
  constructor
  · intro h
    exact ⟨fun g => nested g h, fun g => small g h⟩
  · intro h
    rcases g with g | g | g
    · exact asRead_good g
    · exact absurd g h.1
    · exact absurd g h.2

theorem encodeTx_kinds {seg : Bool} {t : Tx} (g : KnownTx seg t) :
    encodeTx seg t = .ok (t.version ++ (if t.witness then [0x00, 0x01] else []) ++ [UInt8.ofNat t.vins.length] ++
      (t.vins.map (fun i => i.txid ++ i.vout ++ unlockBytes seg i ++ i.sequence)).flatten ++
      [UInt8.ofNat t.vouts.length] ++
      (t.vouts.map (fun o => o.amount ++ [UInt8.ofNat o.lockScript.length] ++ o.lockScript)).flatten ++
      (if t.witness then (t.vins.map witnessBytes).flatten else []) ++ t.lockTime) := by
  have hv : t.version.length = 4 := by rw [g.version]; rfl
  have h1 := g.insPos
  have h2 := g.outsPos
  unfold encodeTx
  rw [if_neg, concatAll_ok _ (fun i hi => encodeIn_kinds (g.ins i hi)), Res.bind_ok,
    concatAll_ok _ (fun o ho => encodeOut_good (g.outs o ho)), Res.bind_ok]
  · by_cases hw : t.witness = true
    · rw [if_pos hw, concatAll_ok _ (fun i hi => encodeWitness_kinds (by have := g.ins i hi; rwa [hw] at this))]
      simp [hw]
    · simp [hw]
  · rintro (h | h | h | h)
    · simp [h] at h1
    · simp [h] at h2
    · exact h hv
    · exact h g.lockTime

theorem decodeTx_kinds {seg : Bool} {t : Tx} (g : KnownTx seg t) (spare : Nat) :
    ∃ b, encodeTx seg t = .ok b ∧ decodeTx spare seg b = .ok { t with vins := t.vins.map asRead } := by
  refine ⟨_, encodeTx_kinds g, ?_⟩
  have hv : t.version.length = 4 := by rw [g.version]; rfl
  have h1 := g.insPos
  have h1' := g.insLe
  have h2 := g.outsPos
  have h2' := g.outsLe
  have nIn : (UInt8.ofNat t.vins.length).toNat = t.vins.length := by simp; omega
  have nOut : (UInt8.ofNat t.vouts.length).toNat = t.vouts.length := by simp; omega
  have zIn : UInt8.ofNat t.vins.length ≠ 0 := u8_ofNat_ne0 (by omega) (by omega)
  have zOut : UInt8.ofNat t.vouts.length ≠ 0 := u8_ofNat_ne0 (by omega) (by omega)
  unfold decodeTx
  simp only [List.append_assoc]
  rw [takeN_append _ _ hv]
  simp only [Res.bind_ok]
  rw [if_neg (by rw [g.version]; decide)]
  have tail : decodeBody spare seg t.witness t.version ([UInt8.ofNat t.vins.length] ++
        ((t.vins.map (fun i => i.txid ++ (i.vout ++ (unlockBytes seg i ++ i.sequence)))).flatten ++
        ([UInt8.ofNat t.vouts.length] ++
        ((t.vouts.map (fun o => o.amount ++ ([UInt8.ofNat o.lockScript.length] ++ o.lockScript))).flatten ++
        ((if t.witness then (t.vins.map witnessBytes).flatten else []) ++ t.lockTime))))) = Res.ok { t with vins := t.vins.map asRead } := by
    unfold decodeBody
    simp only [List.cons_append, List.nil_append, take1, Res.bind_ok]
    rw [if_neg zIn, nIn]
    have d1 := decodeIns_kinds (seg := seg) spare t.vins g.ins
      (UInt8.ofNat t.vouts.length :: ((t.vouts.map (fun o => o.amount ++ UInt8.ofNat o.lockScript.length :: o.lockScript)).flatten ++
        ((if t.witness then (t.vins.map witnessBytes).flatten else []) ++ t.lockTime)))
    simp only [List.append_assoc] at d1
    rw [d1]
    simp only [Res.bind_ok]
    rw [if_neg zOut, nOut]
    have d2 := decodeOuts_good t.vouts g.outs ((if t.witness then (t.vins.map witnessBytes).flatten else []) ++ t.lockTime)
    simp only [List.append_assoc, List.cons_append, List.nil_append] at d2
    rw [d2]
    simp only [Res.bind_ok]
    by_cases hw : t.witness = true
    · rw [hw]
      simp only [if_true]
      rw [decodeWitnesses_kinds t.vins (fun i hi => by have := g.ins i hi; rwa [hw] at this)]
      simp only [Res.bind_ok]
      rw [← List.append_nil t.lockTime, takeN_append _ _ g.lockTime]
      simp [← hw]
    · have hw : t.witness = false := by simpa using hw
      rw [hw]
      simp only [Bool.false_eq_true, if_false, List.nil_append]
      rw [← List.append_nil t.lockTime, takeN_append _ _ g.lockTime]
      have : t.vins.map bare = t.vins.map asRead := by
        apply List.map_congr_left
        intro i hi
        have := g.ins i hi
        rw [hw] at this
        exact bare_eq this
      simp [this, ← hw]
  by_cases hw : t.witness = true
  · rw [if_neg (by simp [hw])]
    rw [hw] at tail
    simp only [hw, if_true, List.cons_append, List.nil_append] at tail ⊢
    rw [if_neg (by simp)]
    exact tail
  · have hw : t.witness = false := by simpa using hw
    rw [if_neg (by simp [hw])]
    rw [hw] at tail
    simp only [hw, Bool.false_eq_true, if_false, List.cons_append, List.nil_append] at tail ⊢
    split
    · rename_i h; simp only [List.cons.injEq] at h; exact absurd h.1 zIn
    · exact tail

end Btc

/-- C20 for signed transactions, exactly, for the kinds of inputs listed in `KnownIn`: the serialisation is decoded to the same transaction, except that a P2SH-P2WPKH input keeps the push byte before
its witness program and a short P2SH multisig script loses its length; so it is decoded to what was encoded if and only if there is no input of these two kinds. -/
theorem C20_signed_exact (segwitOn : Bool) (t : Tx) (g : KnownTx segwitOn t) (spare : Nat) :
    ∃ b, encodeTx segwitOn t = .ok b ∧ decodeTx spare segwitOn b = .ok { t with vins := t.vins.map asRead } ∧
      (decodeTx spare segwitOn b = .ok t ↔ ∀ i ∈ t.vins, ¬ NestedIn t.witness i ∧ ¬ SmallMultiIn segwitOn t.witness i) := by
  obtain ⟨b, h1, h2⟩ := decodeTx_kinds g spare
  refine ⟨b, h1, h2, ?_⟩
  rw [h2, Res.ok.injEq]
  constructor
  · intro h i hi
    rw [← asRead_iff (g.ins i hi)]
    have := congrArg Tx.vins h
    simp only at this
    conv_rhs at this => rw [← List.map_id t.vins]
    exact List.map_inj_left.mp this i hi
  · intro h
    have : t.vins.map asRead = t.vins := by
      conv_rhs => rw [← List.map_id t.vins]
      exact List.map_congr_left fun i hi => (asRead_iff (g.ins i hi)).mpr (h i hi)
    rw [this]

/-- A transaction with a P2SH-P2WPKH and a P2PKH input, and one with a short multisig script, are covered. -/
example : NestedIn true ⟨.p2wpkh, List.replicate 32 1, leBytes 4 0, 0x00 :: 0x14 :: List.replicate 20 7, 71 :: List.replicate 105 4, leBytes 4 7, []⟩ :=
  ⟨rfl, rfl, rfl, rfl, rfl, rfl, rfl, 71, _, rfl, rfl⟩
example : SmallMultiIn false false ⟨.multi, List.replicate 32 1, leBytes 4 0, [], [], leBytes 4 7, 0x70 :: List.replicate 0x70 4⟩ :=
  ⟨rfl, rfl, rfl, rfl, rfl, rfl, rfl, rfl, List.replicate 0x70 4, rfl, by decide, by decide⟩
example : KnownTx true
    { version := leBytes 4 2
      vins := [⟨.p2wpkh, List.replicate 32 1, leBytes 4 0, 0x00 :: 0x14 :: List.replicate 20 7, 71 :: List.replicate 105 4, leBytes 4 7, []⟩,
        ⟨.p2pkh, List.replicate 32 1, leBytes 4 0, [], List.replicate 0x6a 4, leBytes 4 7, []⟩]
      vouts := [⟨leBytes 8 1000, p2pkhScript (List.replicate 20 9)⟩]
      lockTime := leBytes 4 0
      witness := true } := by
  refine ⟨rfl, rfl, by decide, by decide, by decide, by decide, ?_, ?_⟩
  · intro i hi
    simp only [List.mem_cons, List.not_mem_nil, or_false] at hi
    rcases hi with rfl | rfl
    · exact Or.inr (Or.inl ⟨rfl, rfl, rfl, rfl, rfl, rfl, rfl, 71, _, rfl, rfl⟩)
    · exact Or.inl ⟨rfl, rfl, rfl, Or.inr (Or.inl ⟨rfl, rfl, rfl, by decide, by decide, by decide, by decide⟩)⟩
  · intro o ho
    simp only [List.mem_cons, List.not_mem_nil, or_false] at ho
    subst ho
    exact ⟨rfl, by decide, by decide⟩

end Verif
