import Verif.Lemmas.Bytom

/-! Lemmas about `bytomTransaction`: decoding and identifiers. -/

namespace Verif.Bytom
open _root_.Verif.Spec.Bytom (In Out Tx str varint inWire outWire btm spendId muxId resultIds txId sigHash outputId entry InOf OutOf RequestOf)

/-! ### Decoding -/

theorem takeN_append (a r : Bytes) {n : Nat} (h : a.length = n) : takeN n (a ++ r) = .ok (a, r) := by
  unfold takeN
  rw [if_neg (by simp; omega)]
  subst h
  simp

theorem ofNat_toNat {n : Nat} (h : n < 256) : (UInt8.ofNat n).toNat = n := UInt8.toNat_ofNat_of_lt' h

theorem ofNat_ne_zero {n : Nat} (h : n < 256) (h0 : n ≠ 0) : UInt8.ofNat n ≠ 0 := by
  intro e
  have := congrArg UInt8.toNat e
  rw [ofNat_toNat h] at this
  exact h0 this

theorem str_small {b : Bytes} (h : b.length < 128) : str b = UInt8.ofNat b.length :: b := by
  unfold str; rw [varint_small h]; rfl

/-- The commitment is read back, if its position is one byte. -/
theorem decodeCommitment_ok {i : In} (h : InFits i) (hp : i.position < 128) : decodeCommitment ([1] ++ str (commit i)) = .ok (mkIn i) := by
  obtain ⟨c1, c2⟩ := commit_length h
  have hf := h
  obtain ⟨a, b, c, d, e⟩ := h
  unfold decodeCommitment
  rw [str_small (by omega)]
  have hl : ([1] ++ UInt8.ofNat (commit i).length :: commit i).length - 2 = (commit i).length := by simp
  simp only [List.cons_append, List.nil_append] at hl ⊢
  simp only [take1, Res.bind_ok, hl]
  rw [if_neg (by decide), if_neg (by simp)]
  have hc : commit i = i.source ++ (i.asset ++ (varint i.amount ++ (varint i.position ++ (1 :: str i.program)))) := by simp [commit]
  rw [hc, takeN_append _ _ a]
  simp only [Res.bind_ok]
  rw [takeN_append _ _ b]
  simp only [Res.bind_ok]
  rw [read_varint, varint_small hp, str_small (by omega)]
  simp only [Res.bind_ok, List.cons_append, List.nil_append]
  rw [if_neg (by decide), if_neg (ofNat_ne_zero (by omega) (by omega)), ofNat_toNat (by omega), if_neg (by simp)]
  unfold mkIn
  rw [varint_small hp]

/-- A longer position is refused. -/
theorem decodeCommitment_err {i : In} (h : InFits i) (hp : 128 ≤ i.position) : decodeCommitment ([1] ++ str (commit i)) = .err := by
  obtain ⟨c1, c2⟩ := commit_length h
  have hf := h
  obtain ⟨a, b, c, d, e⟩ := h
  unfold decodeCommitment
  rw [str_small (by omega)]
  have hl : ([1] ++ UInt8.ofNat (commit i).length :: commit i).length - 2 = (commit i).length := by simp
  simp only [List.cons_append, List.nil_append] at hl ⊢
  simp only [take1, Res.bind_ok, hl]
  rw [if_neg (by decide), if_neg (by simp)]
  have hc : commit i = i.source ++ (i.asset ++ (varint i.amount ++ (varint i.position ++ (1 :: str i.program)))) := by simp [commit]
  rw [hc, takeN_append _ _ a]
  simp only [Res.bind_ok]
  rw [takeN_append _ _ b]
  simp only [Res.bind_ok]
  rw [read_varint, varint_def i.position, if_neg (by omega)]
  simp only [Res.bind_ok, List.cons_append]
  rw [varint_def (i.position / 128)]
  by_cases h2 : i.position / 128 < 128
  · rw [if_pos h2]
    simp only [List.cons_append, List.nil_append, Res.bind_ok]
    by_cases h1 : UInt8.ofNat (i.position / 128) ≠ 1
    · rw [if_pos h1]
    · rw [if_neg h1, if_neg (by decide), if_pos]
      rw [str_length (by omega)]
      show ¬ (1 = _)
      omega
  · rw [if_neg h2]
    simp only [List.cons_append, Res.bind_ok]
    rw [if_pos]
    intro e
    have := congrArg UInt8.toNat e
    rw [ofNat_toNat (by omega)] at this
    have : i.position / 128 % 128 + 128 = 1 := this
    omega

/-- Witnesses the package can write: none, a signature and a key, two signatures and a script of two or three keys. -/
def Wit (args : List Bytes) : Prop :=
  args = [] ∨ (∃ s p : Bytes, s.length = 64 ∧ p.length = 32 ∧ args = [s, p]) ∨
    ∃ s1 s2 sc : Bytes, s1.length = 64 ∧ s2.length = 64 ∧ (sc.length = 70 ∨ sc.length = 103) ∧ args = [s1, s2, sc]

/-- What the decoder makes of an input with a witness. -/
def decoded (i : In) : List Bytes → TxIn
  | [s, p] => { mkIn i with sigPub := some ⟨some s, some p⟩ }
  | [s1, s2, sc] => { mkIn i with multiSig := some ([1, 3, 0x40] ++ s1 ++ [0x40] ++ s2 ++ UInt8.ofNat sc.length :: sc) }
  | _ => mkIn i

theorem wit_none : str (varint ([] : List Bytes).length ++ ([] : List Bytes).flatMap str) = [1, 0] := by
  simp [str, varint_small]

theorem wit_single {s p : Bytes} (hs : s.length = 64) (hp : p.length = 32) : str (varint [s, p].length ++ [s, p].flatMap str) =
    [0x63, 0x02, 0x40] ++ s ++ [0x20] ++ p := by
  have h1 : [s, p].flatMap str = UInt8.ofNat 64 :: (s ++ UInt8.ofNat 32 :: p) := by
    simp only [List.flatMap_cons, List.flatMap_nil, List.append_nil]
    rw [str_small (b := s) (by omega), str_small (b := p) (by omega), hs, hp]
    simp
  rw [h1, varint_small (by simp)]
  rw [str_small (by simp [hs, hp])]
  simp [hs, hp]

theorem varint_two {n : Nat} (h : 128 ≤ n) (h2 : n < 256) : varint n = [UInt8.ofNat n, 1] := by
  rw [varint_def, if_neg (by omega), varint_small (by omega)]
  have e1 : n % 128 + 128 = n := by omega
  have e2 : n / 128 = 1 := by omega
  rw [e1, e2]
  rfl

theorem wit_multi {s1 s2 sc : Bytes} (h1 : s1.length = 64) (h2 : s2.length = 64) (h3 : sc.length = 70 ∨ sc.length = 103) :
    str (varint [s1, s2, sc].length ++ [s1, s2, sc].flatMap str) =
      UInt8.ofNat (132 + sc.length) :: ([1, 3, 0x40] ++ s1 ++ [0x40] ++ s2 ++ UInt8.ofNat sc.length :: sc) := by
  have e1 : [s1, s2, sc].flatMap str = UInt8.ofNat 64 :: (s1 ++ UInt8.ofNat 64 :: (s2 ++ UInt8.ofNat sc.length :: sc)) := by
    simp only [List.flatMap_cons, List.flatMap_nil, List.append_nil]
    rw [str_small (b := s1) (by omega), str_small (b := s2) (by omega), str_small (b := sc) (by omega), h1, h2]
    simp
  rw [e1, varint_small (by simp)]
  unfold str
  have hl : ([UInt8.ofNat [s1, s2, sc].length] ++ UInt8.ofNat 64 :: (s1 ++ UInt8.ofNat 64 :: (s2 ++ UInt8.ofNat sc.length :: sc))).length = 132 + sc.length := by
    simp [h1, h2]; omega
  rw [hl, varint_two (by omega) (by omega)]
  simp

theorem decodeWitness_ok (i : In) {args : List Bytes} (hw : Wit args) (r : Bytes) :
    decodeWitness (mkIn i) (str (varint args.length ++ args.flatMap str) ++ r) = .ok (decoded i args, r) := by
  rcases hw with rfl | ⟨s, p, hs, hp, rfl⟩ | ⟨s1, s2, sc, h1, h2, h3, rfl⟩
  · rw [wit_none]; rfl
  · rw [wit_single hs hp]
    unfold decodeWitness
    simp only [List.cons_append, List.nil_append, List.append_assoc, take1, Res.bind_ok]
    rw [if_neg (by decide), if_neg (by decide), if_pos (by decide), takeN_append _ _ hs]
    simp only [Res.bind_ok]
    rw [if_neg (by decide), takeN_append _ _ hp]
    rfl
  · rw [wit_multi h1 h2 h3]
    have hl : ([1, 3, 0x40] ++ s1 ++ [0x40] ++ s2 ++ UInt8.ofNat sc.length :: sc).length = (UInt8.ofNat (132 + sc.length)).toNat + 1 := by
      rw [ofNat_toNat (by omega)]
      simp [h1, h2]; omega
    have ht := takeN_append _ r hl
    unfold decodeWitness
    simp only [List.cons_append, take1, Res.bind_ok, List.append_assoc, List.nil_append] at ht ⊢
    have n1 : UInt8.ofNat (132 + sc.length) ≠ 1 := by
      intro e
      have := congrArg UInt8.toNat e
      rw [ofNat_toNat (by omega)] at this
      have : 132 + sc.length = 1 := this
      omega
    rw [if_neg n1, if_neg (ofNat_ne_zero (by omega) (by omega)), if_neg (by decide), if_pos (by decide), ht]
    simp only [Res.bind_ok, decoded, List.cons_append, List.append_assoc, List.nil_append]

theorem head_length {i : In} (h : InFits i) : ([1] ++ str (commit i)).length = (commit i).length + 2 := by
  obtain ⟨c1, c2⟩ := commit_length h
  rw [List.length_append, str_length (by omega)]; simp; omega

theorem decodeIn_eq {i : In} (h : InFits i) (w r : Bytes) : decodeIn ([1] ++ str ([1] ++ str (commit i)) ++ w ++ r) =
    (do let j ← decodeCommitment ([1] ++ str (commit i)); decodeWitness j (w ++ r)) := by
  obtain ⟨c1, c2⟩ := commit_length h
  have hh := head_length h
  generalize [1] ++ str (commit i) = x at *
  unfold decodeIn
  rw [str_small (by omega)]
  simp only [List.cons_append, List.nil_append, take1, Res.bind_ok, List.append_assoc]
  rw [if_neg (by decide), if_neg (ofNat_ne_zero (by omega) (by omega)), ofNat_toNat (by omega), takeN_append _ _ rfl]
  rfl

theorem decodeIn_ok {i : In} (h : InFits i) (hp : i.position < 128) {args : List Bytes} (hw : Wit args) (r : Bytes) :
    decodeIn (inWire i args ++ r) = .ok (decoded i args, r) := by
  rw [inWire_eq, decodeIn_eq h, decodeCommitment_ok h hp, Res.bind_ok, decodeWitness_ok i hw]

theorem decodeIn_err {i : In} (h : InFits i) (hp : 128 ≤ i.position) (args : List Bytes) (r : Bytes) :
    decodeIn (inWire i args ++ r) = .err := by
  rw [inWire_eq, decodeIn_eq h, decodeCommitment_err h hp, Res.bind_err]

theorem decodeOut_ok {o : Out} (h : OutFits o) (r : Bytes) : decodeOut (outWire o ++ r) = .ok (mkOut o, r) := by
  obtain ⟨h1, h2⟩ := h
  have h8 := varint56 h1
  have hb : btm.length = 32 := rfl
  have hl : (btm ++ varint o.amount ++ [1] ++ str o.program).length < 128 ∧ 0 < (btm ++ varint o.amount ++ [1] ++ str o.program).length := by
    rw [List.length_append, List.length_append, List.length_append, hb, str_length (by omega)]
    simp only [List.length_singleton]; omega
  unfold outWire decodeOut
  rw [str_small (b := _ ++ _ ++ [1] ++ _) hl.1]
  simp only [List.cons_append, List.nil_append, take1, Res.bind_ok, List.append_assoc]
  rw [if_neg (by decide)]
  have hl' : 0 < (btm ++ (varint o.amount ++ 1 :: str o.program)).length ∧ (btm ++ (varint o.amount ++ 1 :: str o.program)).length < 128 := by
    simpa using And.intro hl.2 hl.1
  rw [if_neg (ofNat_ne_zero (by omega) (by omega)), ofNat_toNat (by omega)]
  have ht := takeN_append (btm ++ (varint o.amount ++ 1 :: str o.program)) (0 :: r) rfl
  simp only [List.append_assoc, List.cons_append] at ht
  rw [ht]
  simp only [Res.bind_ok]
  unfold decodeOutputScript
  rw [takeN_append _ _ hb]
  simp only [Res.bind_ok]
  rw [read_varint]
  simp only [Res.bind_ok, take1]
  rw [if_neg (by decide), str_small (by omega)]
  simp only [Res.bind_ok]
  rw [if_neg (ofNat_ne_zero (by omega) (by omega)), ofNat_toNat (by omega), if_neg (by omega), if_neg (by simp)]
  simp only [Res.bind_ok]
  rw [if_neg (by decide)]
  rfl

theorem readMany_ok {α β : Type} (f : Bytes → Res (α × Bytes)) (g : β → Bytes) (m : β → α) : ∀ (l : List β) (r : Bytes),
    (∀ b ∈ l, ∀ r, f (g b ++ r) = .ok (m b, r)) → readMany f l.length (l.flatMap g ++ r) = .ok (l.map m, r)
  | [], r, _ => rfl
  | a :: l, r, h => by
    simp only [List.length_cons, readMany, List.flatMap_cons, List.append_assoc]
    rw [h a (by simp)]
    simp only [Res.bind_ok]
    rw [readMany_ok f g m l r (fun b hb => h b (by simp [hb]))]
    rfl

/-- The first item that is refused decides. -/
theorem readMany_err {α β : Type} (f : Bytes → Res (α × Bytes)) (g : β → Bytes) (m : β → α) (bad : β → Prop) : ∀ (l : List β) (r : Bytes),
    (∀ b ∈ l, ∀ r, (¬ bad b → f (g b ++ r) = .ok (m b, r)) ∧ (bad b → f (g b ++ r) = .err)) → (∃ b ∈ l, bad b) →
    readMany f l.length (l.flatMap g ++ r) = .err
  | [], r, _, h => by simp at h
  | a :: l, r, h, hb => by
    simp only [List.length_cons, readMany, List.flatMap_cons, List.append_assoc]
    by_cases ha : bad a
    · rw [(h a (by simp) _).2 ha]; rfl
    · rw [(h a (by simp) _).1 ha]
      simp only [Res.bind_ok]
      rw [readMany_err f g m bad l r (fun b hb => h b (by simp [hb])) (by
        obtain ⟨b, hb, hbb⟩ := hb
        rcases List.mem_cons.mp hb with rfl | hb
        · exact absurd hbb ha
        · exact ⟨b, hb, hbb⟩)]
      rfl

/-- The decoder's form of a transaction with witnesses. -/
def mkTx (t : Tx) (args : List (List Bytes)) : Transaction :=
  ⟨varint 1, varint t.time, List.zipWith decoded t.ins args, t.outs.map mkOut⟩

theorem zipWith_flat (ins : List In) (args : List (List Bytes)) :
    (List.zipWith inWire ins args).flatten = (ins.zip args).flatMap (fun x => inWire x.1 x.2) := by
  rw [List.zip, List.flatMap, List.map_zipWith]

theorem decode_head {t : Tx} (hf : t.Fits) {args : List (List Bytes)} : decodeRaw (t.wire args) = (do
      let (ins, b) ← readMany decodeIn t.ins.length ((List.zipWith inWire t.ins args).flatten ++ (UInt8.ofNat t.outs.length :: t.outs.flatMap outWire))
      let (m, b) ← take1 b
      if m = 0 then .err
      else do
        let (outs, b) ← readMany decodeOut m.toNat b
        if b ≠ [] then .err else .ok ⟨varint 1, varint t.time, ins, outs⟩) := by
  obtain ⟨a1, a2, a3, a4, a5, a6, a7⟩ := hf
  unfold decodeRaw Tx.wire
  have hv : varint 1 = [1] := by rw [varint_small (by omega)]; rfl
  rw [hv, varint_small a2, varint_small a4]
  simp only [List.cons_append, List.nil_append, List.append_assoc, take1, Res.bind_ok]
  rw [if_neg (by decide)]
  simp only [readVersion]
  rw [if_pos (by decide)]
  simp only [Res.bind_ok]
  rw [read_varint]
  simp only [Res.bind_ok]
  rw [if_neg (ofNat_ne_zero (by omega) (by omega)), ofNat_toNat (by omega)]

theorem decode_wire {t : Tx} (hf : t.Fits) (hp : ∀ i ∈ t.ins, i.position < 128) {args : List (List Bytes)} (ha : args.length = t.ins.length)
    (hw : ∀ a ∈ args, Wit a) : decodeRaw (t.wire args) = .ok (mkTx t args) := by
  rw [decode_head hf, zipWith_flat]
  obtain ⟨a1, a2, a3, a4, a5, a6, a7⟩ := hf
  have hl : t.ins.length = (t.ins.zip args).length := by rw [List.length_zip]; omega
  rw [hl, readMany_ok decodeIn (fun x : In × List Bytes => inWire x.1 x.2) (fun x => decoded x.1 x.2) _ _ (by
    rintro ⟨i, a⟩ hb r
    have hi := (List.of_mem_zip hb).1
    exact decodeIn_ok (a6 i hi) (hp i hi) (hw a (List.of_mem_zip hb).2) r)]
  simp only [Res.bind_ok, take1]
  rw [if_neg (ofNat_ne_zero (by omega) (by omega)), ofNat_toNat (by omega)]
  have := readMany_ok decodeOut outWire mkOut t.outs [] (fun o ho r => decodeOut_ok (a7 o ho) r)
  rw [List.append_nil] at this
  rw [this]
  simp only [Res.bind_ok, ne_eq, not_true, if_false, mkTx]
  rw [List.zip, List.map_zipWith]

theorem decode_wire_err {t : Tx} (hf : t.Fits) (hp : ∃ i ∈ t.ins, 128 ≤ i.position) {args : List (List Bytes)} (ha : args.length = t.ins.length)
    (hw : ∀ a ∈ args, Wit a) : decodeRaw (t.wire args) = .err := by
  rw [decode_head hf, zipWith_flat]
  obtain ⟨a1, a2, a3, a4, a5, a6, a7⟩ := hf
  have hl : t.ins.length = (t.ins.zip args).length := by rw [List.length_zip]; omega
  rw [hl, readMany_err decodeIn (fun x : In × List Bytes => inWire x.1 x.2) (fun x => decoded x.1 x.2) (fun x => 128 ≤ x.1.position) _ _ (by
    rintro ⟨i, a⟩ hb r
    have hi := (List.of_mem_zip hb).1
    exact ⟨fun h => decodeIn_ok (a6 i hi) (by simpa using h) (hw a (List.of_mem_zip hb).2) r, fun h => decodeIn_err (a6 i hi) h _ _⟩) (by
    obtain ⟨i, hi, hpos⟩ := hp
    obtain ⟨k, hk, rfl⟩ := List.getElem_of_mem hi
    refine ⟨(t.ins[k], args[k]), ?_, hpos⟩
    rw [List.mem_iff_getElem]
    exact ⟨k, by rw [← hl]; exact hk, by simp⟩)]
  rfl

/-! ### Identifiers -/

/-- The model's input has the fields of the specified one; its witness does not matter. -/
def LikeIn (m : TxIn) (i : In) : Prop :=
  m.sourceID = i.source ∧ m.assetID = i.asset ∧ m.amount = varint i.amount ∧ m.sourcePosition = varint i.position ∧ m.controlProgram = i.program

/-- The same for transactions. -/
def Like (T : Transaction) (t : Tx) : Prop :=
  T.timeRange = varint t.time ∧ List.Forall₂ LikeIn T.inputs t.ins ∧ T.outputs = t.outs.map mkOut

theorem forall2_index {α β : Type} {R : α → β → Prop} {l : List α} {l' : List β} (h : List.Forall₂ R l l') {k : Nat} {b : β} (hk : l'[k]? = some b) :
    ∃ a, l[k]? = some a ∧ R a b := by
  induction h generalizing k with
  | nil => simp at hk
  | cons r _ ih =>
    cases k with
    | zero => simp only [List.getElem?_cons_zero, Option.some.injEq] at hk ⊢; subst hk; exact ⟨_, rfl, r⟩
    | succ k => simp only [List.getElem?_cons_succ] at hk ⊢; exact ih hk

theorem index_some {α : Type} {l : List α} {k : Nat} {a : α} (h : l[k]? = some a) : index l k = .ok a := by
  unfold index; rw [h]

theorem entry_eq (H : Hashes) (type : String) (c : Bytes) : entry H type c = sha3 H (asc "entryid:" ++ asc type ++ asc ":" ++ sha3 H c) := rfl

theorem inputID_ok {H : Hashes} {T : Transaction} {t : Tx} (h : Like T t) (hf : t.Fits) {k : Nat} {i : In} (hk : t.ins[k]? = some i) :
    getInputID H T k = .ok (spendId H i) := by
  obtain ⟨a1, a2, a3, a4, a5, a6, a7⟩ := hf
  obtain ⟨h1, h2, h3⟩ := h
  obtain ⟨m, hm, e1, e2, e3, e4, e5⟩ := forall2_index h2 hk
  have hlen := h2.length_eq
  have hkl : k < t.ins.length := (List.getElem?_eq_some_iff.mp hk).1
  obtain ⟨f1, f2, f3, f4, f5⟩ := a6 i (List.mem_of_getElem? hk)
  unfold getInputID
  rw [if_neg (by omega), if_neg (by omega), index_some hm]
  simp only [Res.bind_ok, e1, e2, e3, e4, e5]
  rw [if_neg (by omega), if_neg (by omega), if_neg (by omega), toUint64_varint f3, toUint64_varint f4]
  unfold spendId outputId
  rw [str_small (by omega)]
  simp only [entry_eq]
  simp only [show asc "output1:" = asc "output1" ++ asc ":" by decide, show asc "spend1:" = asc "spend1" ++ asc ":" by decide, List.append_assoc, le64]

theorem collect_ok {α β : Type} (f : Nat → Res Bytes) (g : Nat → β → Bytes) : ∀ (l : List α) (l' : List β) (k : Nat), l.length = l'.length →
    (∀ j b, l'[j]? = some b → f (k + j) = .ok (g (k + j) b)) → collectIDs f k l = .ok (l'.mapIdx (fun j b => g (k + j) b))
  | [], [], k, _, _ => rfl
  | [], _ :: _, k, h, _ => by simp at h
  | _ :: _, [], k, h, _ => by simp at h
  | _ :: l, b :: l', k, h, hf => by
    unfold collectIDs
    have h0 := hf 0 b (by simp)
    rw [Nat.add_zero] at h0
    rw [h0, collect_ok f g l l' (k + 1) (by simpa using h) (by
      intro j c hj
      have := hf (j + 1) c (by simpa using hj)
      rw [show k + 1 + j = k + (j + 1) by omega]; exact this)]
    simp only [Res.bind_ok, List.mapIdx_cons, Nat.add_zero]
    congr 3
    funext j b
    rw [show k + 1 + j = k + (j + 1) by omega]

theorem mapIdx_const {α β : Type} (g : α → β) (l : List α) : l.mapIdx (fun _ a => g a) = l.map g := by
  rw [List.mapIdx_eq_zipIdx_map]
  conv_rhs => rw [← List.zipIdx_map_fst 0 l, List.map_map]
  rfl

theorem zip_sources (H : Hashes) {ms : List TxIn} {ins : List In} (h : List.Forall₂ LikeIn ms ins)
    (hf : ∀ i ∈ ins, i.amount < 2 ^ 56 ∧ i.position < 2 ^ 56) :
    (List.zipWith (fun id i => id ++ i.assetID ++ le64 (uvarintToUint64 i.amount) ++ le64 (uvarintToUint64 i.sourcePosition)) (ins.map (spendId H)) ms).flatten =
      ins.flatMap (fun i => spendId H i ++ i.asset ++ leBytes 8 i.amount ++ leBytes 8 i.position) := by
  induction h with
  | nil => rfl
  | cons r _ ih =>
    obtain ⟨e1, e2, e3, e4, e5⟩ := r
    obtain ⟨f1, f2⟩ := hf _ List.mem_cons_self
    simp only [List.map_cons, List.zipWith_cons_cons, List.flatten_cons, List.flatMap_cons, e2, e3, e4, toUint64_varint f1, toUint64_varint f2, le64]
    rw [← ih (fun i hi => hf i (by simp [hi]))]
    rfl

theorem muxID_ok {H : Hashes} {T : Transaction} {t : Tx} (h : Like T t) (hf : t.Fits) : getMuxID H T = .ok (muxId H t) := by
  have hi := collect_ok (getInputID H T) (fun _ => spendId H) T.inputs t.ins 0 h.2.1.length_eq (fun j b hj => by
    rw [Nat.zero_add]; exact inputID_ok h hf hj)
  obtain ⟨a1, a2, a3, a4, a5, a6, a7⟩ := hf
  unfold getMuxID
  rw [hi, mapIdx_const]
  simp only [Res.bind_ok]
  rw [zip_sources H h.2.1 (fun i hi => ⟨(a6 i hi).2.2.1, (a6 i hi).2.2.2.1⟩)]
  unfold muxId
  rw [entry_eq, varint_small a2, List.length_map, str_small (by decide)]
  simp only [show asc "mux1:" = asc "mux1" ++ asc ":" by decide, List.append_assoc, le64, List.cons_append, List.nil_append]
  rfl

theorem outID_ok {H : Hashes} {T : Transaction} {t : Tx} (h : Like T t) (hf : t.Fits) {k : Nat} {o : Out} (hk : t.outs[k]? = some o) :
    getOutID H T k = .ok (outputId H (muxId H t) btm o.amount k o.program) := by
  unfold getOutID
  rw [muxID_ok h hf]
  obtain ⟨a1, a2, a3, a4, a5, a6, a7⟩ := hf
  obtain ⟨h1, h2, h3⟩ := h
  obtain ⟨f1, f2⟩ := a7 o (List.mem_of_getElem? hk)
  have hx : T.outputs[k]? = some (mkOut o) := by rw [h3, List.getElem?_map, hk]; rfl
  simp only [Res.bind_ok]
  rw [if_neg (by rw [h3, List.length_map]; omega), index_some hx]
  simp only [Res.bind_ok, mkOut]
  have p := varint_pos o.amount
  rw [if_neg (by decide), if_neg (by omega), if_neg (by simp), toUint64_varint f1]
  unfold outputId
  rw [entry_eq, str_small (by omega)]
  simp only [show asc "output1:" = asc "output1" ++ asc ":" by decide, List.append_assoc, le64]

theorem txID_ok {H : Hashes} {T : Transaction} {t : Tx} (h : Like T t) (hf : t.Fits) : getTxID H T = .ok (txId H t) := by
  have hl : T.outputs.length = t.outs.length := by rw [h.2.2, List.length_map]
  have hi := collect_ok (getOutID H T) (fun k o => outputId H (muxId H t) btm o.amount k o.program) T.outputs t.outs 0 hl
    (fun j b hj => by rw [Nat.zero_add]; exact outID_ok h hf hj)
  obtain ⟨a1, a2, a3, a4, a5, a6, a7⟩ := hf
  unfold getTxID
  rw [hi]
  simp only [Res.bind_ok, Nat.zero_add]
  rw [h.1, toUint64_varint a5, hl]
  unfold txId resultIds
  rw [entry_eq, varint_small a4]
  simp only [show asc "txheader:" = asc "txheader" ++ asc ":" by decide, List.append_assoc, le64, List.cons_append, List.nil_append]

theorem sigHash_ok {H : Hashes} {T : Transaction} {t : Tx} (h : Like T t) (hf : t.Fits) {k : Nat} {i : In} (hk : t.ins[k]? = some i) :
    getSigHash H T k = .ok (sigHash H t i) := by
  unfold getSigHash
  rw [inputID_ok h hf hk, txID_ok h hf]
  rfl

theorem decoded_like (i : In) {args : List Bytes} (h : Wit args) : LikeIn (decoded i args) i := by
  rcases h with rfl | ⟨s, p, _, _, rfl⟩ | ⟨s1, s2, sc, _, _, _, rfl⟩ <;> exact ⟨rfl, rfl, rfl, rfl, rfl⟩

theorem mkTx_like (t : Tx) {args : List (List Bytes)} (ha : args.length = t.ins.length) (hw : ∀ a ∈ args, Wit a) : Like (mkTx t args) t := by
  refine ⟨rfl, ?_, rfl⟩
  unfold mkTx
  simp only
  generalize t.ins = l at ha
  induction l generalizing args with
  | nil => simp
  | cons i l ih =>
    cases args with
    | nil => simp at ha
    | cons a args =>
      rw [List.zipWith_cons_cons]
      exact .cons (decoded_like i (hw a (by simp))) (ih (fun b hb => hw b (by simp [hb])) (by simpa using ha))

end Verif.Bytom
