import Verif.Lemmas.BytomAddr
import Verif.Lemmas.Elastos
import Verif.Lemmas.Hex

/-! Lemmas about `bytomTransaction`. -/

namespace Verif.Bytom
open _root_.Verif.Spec.Bytom (In Out Tx str varint inWire outWire btm spendId muxId resultIds txId sigHash outputId entry InOf OutOf RequestOf)

/-! ### Variable-length integers -/

theorem varint_def (n : Nat) : varint n = if n < 128 then [UInt8.ofNat n] else UInt8.ofNat (n % 128 + 128) :: varint (n / 128) :=
  Elastos.uvarint_def n

theorem varint_small {n : Nat} (h : n < 128) : varint n = [UInt8.ofNat n] := by rw [varint_def, if_pos h]

theorem varint_length_le : ∀ (k n : Nat), n < 128 ^ (k + 1) → (varint n).length ≤ k + 1
  | 0, n, h => by rw [varint_small (by simpa using h)]; simp
  | k + 1, n, h => by
    rw [varint_def]
    split
    · simp
    · rw [List.length_cons]
      have := varint_length_le k (n / 128) (Nat.div_lt_of_lt_mul (by rw [Nat.mul_comm]; exact (pow_succ 128 (k+1)) ▸ h))
      omega

theorem varint_length_gt : ∀ (k n : Nat), 128 ^ k ≤ n → k < (varint n).length
  | 0, n, h => by
    rw [varint_def]; split <;> simp
  | k + 1, n, h => by
    have h1 : 1 ≤ 128 ^ k := Nat.one_le_pow _ _ (by omega)
    rw [pow_succ] at h
    rw [varint_def, if_neg (by omega), List.length_cons]
    have := varint_length_gt k (n / 128) ((Nat.le_div_iff_mul_le (by omega)).mpr h)
    omega

theorem varint_pos (n : Nat) : 0 < (varint n).length := by
  rw [varint_def]; split <;> simp

theorem putUvarint_eq : ∀ (k n : Nat), n < 128 ^ (k + 1) → putUvarint k n = varint n
  | 0, n, h => by rw [varint_small (by simpa using h)]; rfl
  | k + 1, n, h => by
    unfold putUvarint
    rw [varint_def, putUvarint_eq k (n / 128) (Nat.div_lt_of_lt_mul (by rw [Nat.mul_comm]; exact (pow_succ 128 (k+1)) ▸ h))]

theorem uint64ToUvarint_ok {n : Nat} (h : n < 2 ^ 56) : uint64ToUvarint n = .ok (varint n) := by
  unfold uint64ToUvarint
  have e : (2 : Nat) ^ 56 = 128 ^ (7 + 1) := by norm_num
  rw [e] at h
  have h10 : n < 128 ^ (9 + 1) := lt_of_lt_of_le h (Nat.pow_le_pow_right (by omega) (by omega))
  rw [putUvarint_eq 9 n h10]
  have := varint_length_le 7 n h
  simp only
  rw [if_neg (by omega)]

theorem uint64ToUvarint_panic {n : Nat} (h : 2 ^ 56 ≤ n) (h' : n < 2 ^ 64) : uint64ToUvarint n = .panic := by
  unfold uint64ToUvarint
  have e : (2 : Nat) ^ 56 = 128 ^ 8 := by norm_num
  rw [e] at h
  have h10 : n < 128 ^ (9 + 1) := lt_of_lt_of_le h' (by norm_num)
  rw [putUvarint_eq 9 n h10]
  have := varint_length_gt 8 n h
  simp only
  rw [if_pos (by omega)]

theorem ofNat_lt_80 {n : Nat} (h : n < 128) : UInt8.ofNat n < 0x80 := by
  rw [UInt8.lt_iff_toNat_lt, UInt8.toNat_ofNat_of_lt' (by show n < 256; omega)]
  exact h

theorem not_lt_80 (n : Nat) : ¬ UInt8.ofNat (n % 128 + 128) < 0x80 := by
  rw [UInt8.lt_iff_toNat_lt, UInt8.toNat_ofNat_of_lt' (by show n % 128 + 128 < 256; omega)]
  show ¬ (n % 128 + 128 < 128)
  omega

theorem scan_varint (n : Nat) (r : Bytes) : scanUvarint (varint n ++ r) = .ok (varint n, r) := by
  induction n using Nat.strong_induction_on with
  | _ n ih =>
    rw [varint_def]
    by_cases h : n < 128
    · rw [if_pos h]
      simp only [List.cons_append, List.nil_append, scanUvarint]
      rw [if_pos (ofNat_lt_80 h)]
    · rw [if_neg h]
      simp only [List.cons_append, scanUvarint]
      rw [if_neg (not_lt_80 n), ih (n / 128) (by omega)]
      rfl

theorem read_varint (n : Nat) (r : Bytes) : readUvarint (varint n ++ r) = .ok (varint n, r) := by
  have h := varint_pos n
  have hs := scan_varint n r
  cases hv : varint n ++ r with
  | nil => simp at hv; rw [hv.1] at h; simp at h
  | cons b t => rw [hv] at hs; exact hs

theorem uvarint_varint : ∀ (k i x n : Nat), n < 128 ^ (k + 1) → i + k ≤ 8 →
    uvarint i x (varint n) = (x + n * 2 ^ (7 * i), ((i + (varint n).length : Nat) : Int))
  | k, i, x, n, h, hi => by
    rw [varint_def]
    by_cases hn : n < 128
    · rw [if_pos hn]
      unfold uvarint
      rw [if_pos (ofNat_lt_80 hn), if_neg (by omega), UInt8.toNat_ofNat_of_lt' (by show n < 256; omega)]
      simp
    · rw [if_neg hn]
      unfold uvarint
      rw [if_neg (not_lt_80 n), UInt8.toNat_ofNat_of_lt' (by show n % 128 + 128 < 256; omega)]
      cases k with
      | zero => simp at h; omega
      | succ k =>
        rw [uvarint_varint k (i + 1) _ (n / 128)
          (Nat.div_lt_of_lt_mul (by rw [Nat.mul_comm]; exact (pow_succ 128 (k+1)) ▸ h)) (by omega)]
        have e1 : (n % 128 + 128) % 128 = n % 128 := by omega
        have e2 : 2 ^ (7 * (i + 1)) = 2 ^ (7 * i) * 128 := by rw [Nat.mul_add, pow_add]; rfl
        rw [e1, e2, List.length_cons]
        refine Prod.ext ?_ ?_
        · have := Nat.div_add_mod n 128
          show x + n % 128 * 2 ^ (7 * i) + n / 128 * (2 ^ (7 * i) * 128) = x + n * 2 ^ (7 * i)
          calc x + n % 128 * 2 ^ (7 * i) + n / 128 * (2 ^ (7 * i) * 128) = x + (128 * (n / 128) + n % 128) * 2 ^ (7 * i) := by ring
            _ = _ := by rw [this]
        · show ((i + 1 + (varint (n / 128)).length : Nat) : Int) = ((i + ((varint (n / 128)).length + 1) : Nat) : Int)
          congr 1; omega

theorem toUint64_varint {n : Nat} (h : n < 2 ^ 56) : uvarintToUint64 (varint n) = n := by
  have e : (2 : Nat) ^ 56 = 128 ^ (7 + 1) := by norm_num
  rw [e] at h
  have := varint_pos n
  unfold uvarintToUint64
  rw [if_neg (by omega), uvarint_varint 7 0 0 n h (by omega)]
  simp

/-! ### The model's form of a transaction -/

/-- An input without witness. -/
def mkIn (i : In) : TxIn :=
  { sourceID := i.source, sourcePosition := varint i.position, assetID := i.asset, amount := varint i.amount, controlProgram := i.program }

/-- An output. -/
def mkOut (o : Out) : TxOut := ⟨btm, UInt8.ofNat o.program.length :: o.program, varint o.amount⟩

theorem newTxIn_ok {v : Vin} {i : In} (h : InOf v i) (h1 : i.amount < 2 ^ 56) (h2 : i.position < 2 ^ 56) : newTxIn v = .ok (mkIn i) := by
  obtain ⟨a, b, c, d, e⟩ := h
  unfold newTxIn
  rw [a, b, c, d, e, uint64ToUvarint_ok h1, uint64ToUvarint_ok h2]
  rfl

theorem newTxIns_ok {vins : List Vin} {ins : List In} (h : List.Forall₂ InOf vins ins) (hf : ∀ i ∈ ins, i.amount < 2 ^ 56 ∧ i.position < 2 ^ 56) :
    newTxIns vins = .ok (ins.map mkIn) := by
  induction h with
  | nil => rfl
  | cons a _ ih =>
    unfold newTxIns
    rw [newTxIn_ok a (hf _ (by simp)).1 (hf _ (by simp)).2, ih (fun i hi => hf i (by simp [hi]))]
    rfl

theorem outProgram_ok {test : Bool} {p addr : Bytes} (hp : p.length = 20 ∨ p.length = 32) (ha : Spec.Bytom.IsAddress (Spec.Bytom.hrp test) p addr) :
    outProgram addr = .ok (UInt8.ofNat (p.length + 2) :: 0 :: UInt8.ofNat p.length :: p) ∧ slice addr 0 2 = .ok (hrpOf test) := by
  obtain ⟨hh, hl, he⟩ := hrpOf_ok test
  rw [← he] at ha
  obtain ⟨h1, h2, h3⟩ := decode_address _ _ _ hh (by omega) hp ha
  constructor
  · unfold outProgram
    rw [h1]
    simp only [Res.bind_ok]
    rw [if_neg (by simp), if_neg (by omega)]
    rfl
  · rw [slice_ok (by omega) (by omega)]
    rw [hl] at h2
    simpa using h2

theorem newTxOut_ok {test : Bool} {v : Vout} {o : Out} (h : OutOf test v o) (h1 : o.amount < 2 ^ 56) :
    newTxOut v = .ok (mkOut o) ∧ slice v.address 0 2 = .ok (hrpOf test) := by
  obtain ⟨a, p, hp, ha, hpr⟩ := h
  obtain ⟨g1, g2⟩ := outProgram_ok hp ha
  refine ⟨?_, g2⟩
  unfold newTxOut
  rw [g1, a, uint64ToUvarint_ok h1]
  simp only [Res.bind_ok, mkOut, hpr]
  rfl

/-- Outputs that are made as described. -/
def Made (test : Bool) (v : Vout) (o : Out) : Prop := newTxOut v = .ok (mkOut o) ∧ slice v.address 0 2 = .ok (hrpOf test)

theorem made_ok {test : Bool} {vouts : List Vout} {outs : List Out} (h : List.Forall₂ (Made test) vouts outs) :
    newTxOuts vouts = .ok (outs.map mkOut) ∧ checkAddresses test vouts = .ok () := by
  induction h with
  | nil => exact ⟨rfl, rfl⟩
  | cons a _ ih =>
    obtain ⟨g1, g2⟩ := a
    unfold newTxOuts checkAddresses
    rw [g1, g2, ih.1, ih.2]
    simp

theorem made_of {test : Bool} {vouts : List Vout} {outs : List Out} (h : List.Forall₂ (OutOf test) vouts outs)
    (hf : ∀ o ∈ outs, o.amount < 2 ^ 56) : List.Forall₂ (Made test) vouts outs := by
  induction h with
  | nil => exact .nil
  | cons a _ ih => exact .cons (newTxOut_ok a (hf _ List.mem_cons_self)) (ih (fun o ho => hf o (List.mem_cons_of_mem _ ho)))

theorem newTxOuts_ok {test : Bool} {vouts : List Vout} {outs : List Out} (h : List.Forall₂ (OutOf test) vouts outs)
    (hf : ∀ o ∈ outs, o.amount < 2 ^ 56) :
    newTxOuts vouts = .ok (outs.map mkOut) ∧ checkAddresses test vouts = .ok () := made_ok (made_of h hf)

/-! ### Serialisation -/

theorem len1_str {b : Bytes} (h : b.length < 128) : len1 b = str b := by
  unfold len1 str; rw [varint_small h]; rfl

theorem str_length {b : Bytes} (h : b.length < 128) : (str b).length = b.length + 1 := by
  unfold str; rw [varint_small h]; simp

theorem varint56 {n : Nat} (h : n < 2 ^ 56) : (varint n).length ≤ 8 := varint_length_le 7 n (lt_of_lt_of_le h (by norm_num))

/-- Sizes of one input. -/
def InFits (i : In) : Prop := i.source.length = 32 ∧ i.asset.length = 32 ∧ i.amount < 2 ^ 56 ∧ i.position < 2 ^ 56 ∧
    (i.program.length = 22 ∨ i.program.length = 34)

/-- Sizes of one output. -/
def OutFits (o : Out) : Prop := o.amount < 2 ^ 56 ∧ (o.program.length = 22 ∨ o.program.length = 34)

/-- The commitment of an input. -/
def commit (i : In) : Bytes := i.source ++ i.asset ++ varint i.amount ++ varint i.position ++ [1] ++ str i.program

theorem commit_length {i : In} (h : InFits i) : (commit i).length < 120 ∧ 64 < (commit i).length := by
  obtain ⟨a, b, c, d, e⟩ := h
  have h1 := varint56 c
  have h2 := varint56 d
  have h3 : (str i.program).length = i.program.length + 1 := str_length (by omega)
  simp only [commit, List.length_append, a, b, h3, List.length_singleton]
  omega

theorem commit_eq {i : In} (h : InFits i) : i.source ++ i.asset ++ varint i.amount ++ varint i.position ++
    [0x01, UInt8.ofNat i.program.length] ++ i.program = commit i := by
  obtain ⟨a, b, c, d, e⟩ := h
  unfold commit str
  rw [varint_small (n := i.program.length) (by omega)]
  simp

theorem inWire_eq (i : In) (args : List Bytes) : inWire i args = [1] ++ str ([1] ++ str (commit i)) ++ str (varint args.length ++ args.flatMap str) := rfl

theorem head_eq {i : In} (h : InFits i) : len1 (0x01 :: len1 (commit i)) = str ([1] ++ str (commit i)) := by
  obtain ⟨h1, h2⟩ := commit_length h
  rw [len1_str (b := commit i) (by omega), len1_str (by rw [List.length_cons, str_length (by omega)]; omega)]
  rfl

/-- The head of an input, whatever its witness. -/
theorem toBytes_eq {i : In} (h : InFits i) (sp : Option SigPub) (ms : Option Bytes) :
    TxIn.toBytes { mkIn i with sigPub := sp, multiSig := ms } =
      (match sp, ms with
      | none, none => .ok ([1] ++ str ([1] ++ str (commit i)) ++ [0x01, 0x00])
      | none, some m => .ok ([1] ++ str ([1] ++ str (commit i)) ++ m)
      | some sp, _ => do
        let s ← sp.toBytes
        .ok ([1] ++ str ([1] ++ str (commit i)) ++ s)) := by
  have h' := h
  obtain ⟨a, b, c, d, e⟩ := h
  unfold TxIn.toBytes
  simp only [mkIn]
  have p1 := varint_pos i.position
  have p2 := varint_pos i.amount
  have q1 : ¬ (varint i.position).length = 0 := by omega
  have q2 : ¬ (varint i.amount).length = 0 := by omega
  have q3 : ¬ (i.program.length ≠ 22 ∧ i.program.length ≠ 34) := by omega
  cases sp <;> cases ms <;>
    simp only [a, b, q1, q2, q3, ne_eq, not_true_eq_false, if_false, commit_eq h', head_eq h'] <;> simp

theorem mkIn_toBytes {i : In} (h : InFits i) : (mkIn i).toBytes = .ok (inWire i []) := by
  have := toBytes_eq h none none
  rw [show ({ mkIn i with sigPub := none, multiSig := none } : TxIn) = mkIn i from rfl] at this
  rw [this, inWire_eq]
  have e : str (varint ([] : List Bytes).length ++ ([] : List Bytes).flatMap str) = [1, 0] := by
    simp [str, varint_small]
  rw [e]

theorem mkOut_toBytes {o : Out} (h : OutFits o) : (mkOut o).toBytes = .ok (outWire o) := by
  obtain ⟨h1, h2⟩ := h
  have p2 := varint_pos o.amount
  have h8 := varint56 h1
  unfold TxOut.toBytes mkOut
  simp only
  have hb : btm.length = 32 := rfl
  rw [if_neg (by omega), if_neg (by rw [hb]; omega), if_neg (by simp)]
  have e : UInt8.ofNat o.program.length :: o.program = str o.program := by unfold str; rw [varint_small (by omega)]; rfl
  rw [e]
  have hl : (btm ++ varint o.amount ++ [1] ++ str o.program).length < 128 := by
    rw [List.length_append, List.length_append, List.length_append, hb, str_length (by omega)]
    simp only [List.length_singleton]; omega
  have e2 : btm ++ varint o.amount ++ 0x01 :: str o.program = btm ++ varint o.amount ++ [1] ++ str o.program := by simp
  rw [e2, len1_str hl]
  rfl

theorem concat_ok {α β : Type} (f : α → Res Bytes) (m : β → α) (g : β → Bytes) (l : List β) (h : ∀ b ∈ l, f (m b) = .ok (g b)) :
    concatBytes f (l.map m) = .ok (l.flatMap g) := by
  induction l with
  | nil => rfl
  | cons a l ih =>
    simp only [List.map_cons, concatBytes]
    rw [h a (by simp), ih (fun b hb => h b (by simp [hb]))]
    rfl

/-- Serialising inputs each of which has its wire form. -/
theorem concat_ins {ms : List TxIn} {ins : List In} {args : List (List Bytes)} (h : List.Forall₂ (fun m (x : In × List Bytes) => m.toBytes = .ok (inWire x.1 x.2))
    ms (ins.zip args)) : concatBytes TxIn.toBytes ms = .ok (List.zipWith inWire ins args).flatten := by
  have e : List.zipWith inWire ins args = (ins.zip args).map (fun x => inWire x.1 x.2) := by
    rw [List.zip, List.map_zipWith]
  rw [e]
  generalize ins.zip args = l at h
  induction h with
  | nil => rfl
  | cons a _ ih =>
    simp only [concatBytes, a, ih, Res.bind_ok, List.map_cons, List.flatten_cons]

theorem toBytes_wire {t : Tx} (hf : t.Fits) (args : List (List Bytes)) (ha : args.length = t.ins.length) (ms : List TxIn)
    (hm : List.Forall₂ (fun m (x : In × List Bytes) => m.toBytes = .ok (inWire x.1 x.2)) ms (t.ins.zip args)) :
    Transaction.toBytes ⟨varint 1, varint t.time, ms, t.outs.map mkOut⟩ = .ok (t.wire args) := by
  obtain ⟨a1, a2, a3, a4, a5, a6, a7⟩ := hf
  have hl : ms.length = t.ins.length := by
    rw [hm.length_eq, List.length_zip]; omega
  unfold Transaction.toBytes
  have p1 := varint_pos t.time
  have p2 := varint_pos 1
  simp only [List.length_map]
  rw [if_neg (by omega), if_neg (by omega), if_neg (by omega), if_neg (by omega), concat_ins hm,
    concat_ok TxOut.toBytes mkOut outWire t.outs (fun o ho => mkOut_toBytes (a7 o ho))]
  simp only [Res.bind_ok, Tx.wire, hl]
  rw [varint_small a2, varint_small a4]
  simp

theorem forall2_self {α β : Type} {R : α → β → Prop} (f : γ → α) (g : γ → β) (l : List γ) (h : ∀ c ∈ l, R (f c) (g c)) :
    List.Forall₂ R (l.map f) (l.map g) := by
  induction l with
  | nil => exact .nil
  | cons a l ih => exact .cons (h a (by simp)) (ih (fun c hc => h c (by simp [hc])))

theorem create_made {vins : List Vin} {vouts : List Vout} {time : UInt64} {test : Bool} {t : Tx} (h1 : List.Forall₂ InOf vins t.ins)
    (h2 : List.Forall₂ (Made test) vouts t.outs) (h3 : time.toNat = t.time) (hf : t.Fits) :
    createEmpty vins vouts time test = .ok (Hex.encode t.unsigned) := by
  have hf' := hf
  obtain ⟨a1, a2, a3, a4, a5, a6, a7⟩ := hf
  have hi := newTxIns_ok h1 (fun i hi => ⟨(a6 i hi).2.2.1, (a6 i hi).2.2.2.1⟩)
  obtain ⟨ho, hc⟩ := made_ok h2
  unfold createEmpty newEmptyTransaction
  rw [hc, h3]
  simp only [Res.bind_ok]
  rw [if_neg (by rw [h1.length_eq]; omega), hi]
  simp only [Res.bind_ok]
  rw [if_neg (by rw [h2.length_eq]; omega), ho, uint64ToUvarint_ok a5, uint64ToUvarint_ok (by norm_num)]
  simp only [Res.bind_ok]
  rw [toBytes_wire hf' (t.ins.map fun _ => []) (by simp) (t.ins.map mkIn) (by
    have : t.ins.zip (t.ins.map fun _ => ([] : List Bytes)) = t.ins.map (fun i => (i, [])) := by
      generalize t.ins = l
      induction l with
      | nil => rfl
      | cons a l ih => rw [List.map_cons, List.zip_cons_cons, ih]; rfl
    rw [this]
    exact forall2_self _ _ _ (fun i hi => mkIn_toBytes (a6 i hi)))]
  rfl

theorem create_ok {vins : List Vin} {vouts : List Vout} {time : UInt64} {test : Bool} {t : Tx} (h : RequestOf vins vouts time test t) (hf : t.Fits) :
    createEmpty vins vouts time test = .ok (Hex.encode t.unsigned) :=
  create_made h.1 (made_of h.2.1 (fun o ho => (hf.2.2.2.2.2.2 o ho).1)) h.2.2 hf

end Verif.Bytom
