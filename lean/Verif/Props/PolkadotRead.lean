import Verif.Props.PolkadotText
import Verif.Spec.JsonFields

/-! C121: which transfer a text is read as, for every JSON text. -/

namespace Verif
open Verif.Spec Verif.Spec.Polkadot Verif.Json Verif.Spec.JsonFields

namespace Polkadot

theorem field_iff (fold : Bytes → Bytes → Bool) : ∀ (names : List Bytes) (_ : names.Nodup) (i : Nat) (name : Bytes), names[i]? = some name → ∀ k,
    (Fiii.field fold names k = some i ↔ Mine fold names name k) := by
  intro names hn i name hi k
  obtain ⟨hlt, hi⟩ := List.getElem?_eq_some_iff.mp hi
  unfold Fiii.field Mine
  cases h : names.findIdx? (· == k) with
  | some j =>
    rw [List.findIdx?_eq_some_iff_getElem] at h
    obtain ⟨hj, h1, h2⟩ := h
    have h1 : names[j] = k := by simpa using h1
    have hmem : k ∈ names := h1 ▸ List.getElem_mem hj
    simp only [Option.some.injEq, hmem, not_true_eq_false, false_and, or_false]
    constructor
    · rintro rfl; rw [← h1, hi]
    · rintro rfl
      exact (List.Nodup.getElem_inj_iff hn).mp (by rw [h1, hi])
  | none =>
    rw [List.findIdx?_eq_none_iff] at h
    have hmem : k ∉ names := by
      intro hk
      simpa using h k hk
    have hne : k ≠ name := by
      rintro rfl
      exact hmem (hi ▸ List.getElem_mem hlt)
    simp only [hmem, hne, not_false_eq_true, true_and, false_or]
    rw [List.findIdx?_eq_some_iff_getElem]
    constructor
    · rintro ⟨h1, h2, h3⟩
      refine ⟨names.take i, names.drop (i + 1), ?_, ?_, ?_⟩
      · rw [← hi, ← List.drop_eq_getElem_cons, List.take_append_drop]
      · rw [← hi]; simpa using h2
      · intro n hn'
        obtain ⟨j, hj, rfl⟩ := List.mem_iff_getElem.mp hn'
        rw [List.getElem_take]
        simp only [List.length_take] at hj
        simpa using h3 j (by omega)
    · rintro ⟨b, a, he, h2, h3⟩
      have hb : b.length = i := by
        have : names[b.length]'(by simp [he]) = name := by simp [he]
        exact (List.Nodup.getElem_inj_iff hn).mp (by rw [this, hi])
      refine ⟨hlt, by rw [hi]; simpa using h2, ?_⟩
      intro j hj
      have : names[j] ∈ b := by
        have : names[j] = b[j]'(by omega) := by simp only [he]; rw [List.getElem_append_left]
        rw [this]; exact List.getElem_mem _
      simpa using h3 _ this

theorem fieldIs_nil {α : Type} {mine : Bytes → Prop} {reads : Json → α → Prop} {c x : α} : FieldIs mine reads c [] x ↔ x = c := by
  simp [FieldIs]

theorem fieldIs_cons {α : Type} {mine : Bytes → Prop} {reads : Json → α → Prop}
    {c x : α} {k : Bytes} {v : Json} {l : List (Bytes × Json)} :
    FieldIs mine reads c ((k, v) :: l) x ↔ (¬ mine k ∧ FieldIs mine reads c l x) ∨
      (mine k ∧ ((v = .null ∧ FieldIs mine reads c l x) ∨ ∃ y, reads v y ∧ FieldIs mine reads y l x)) := by
  unfold FieldIs
  constructor
  · rintro ⟨h1, h2⟩
    rw [List.forall_mem_cons] at h1
    by_cases hk : mine k
    · refine .inr ⟨hk, ?_⟩
      rcases h2 with ⟨rfl, h2⟩ | ⟨l1, k', v', l2, he, hk', hv', h2⟩
      · rw [List.forall_mem_cons] at h2
        exact .inl ⟨h2.1 hk, h1.2, .inl ⟨rfl, h2.2⟩⟩
      · cases l1 with
        | nil =>
          simp only [List.nil_append, List.cons.injEq, Prod.mk.injEq] at he
          obtain ⟨⟨rfl, rfl⟩, rfl⟩ := he
          exact .inr ⟨x, hv', h1.2, .inl ⟨rfl, h2⟩⟩
        | cons m l1 =>
          simp only [List.cons_append, List.cons.injEq] at he
          obtain ⟨rfl, rfl⟩ := he
          rcases h1.1 hk with h | ⟨y, h⟩
          · exact .inl ⟨h, h1.2, .inr ⟨l1, k', v', l2, rfl, hk', hv', h2⟩⟩
          · exact .inr ⟨y, h, h1.2, .inr ⟨l1, k', v', l2, rfl, hk', hv', h2⟩⟩
    · refine .inl ⟨hk, h1.2, ?_⟩
      rcases h2 with ⟨rfl, h2⟩ | ⟨l1, k', v', l2, he, hk', hv', h2⟩
      · rw [List.forall_mem_cons] at h2
        exact .inl ⟨rfl, h2.2⟩
      · cases l1 with
        | nil =>
          simp only [List.nil_append, List.cons.injEq, Prod.mk.injEq] at he
          obtain ⟨⟨rfl, rfl⟩, rfl⟩ := he
          exact absurd hk' hk
        | cons m l1 =>
          simp only [List.cons_append, List.cons.injEq] at he
          obtain ⟨rfl, rfl⟩ := he
          exact .inr ⟨l1, k', v', l2, rfl, hk', hv', h2⟩
  · rintro (⟨hk, h1, h2⟩ | ⟨hk, ⟨rfl, h1, h2⟩ | ⟨y, hy, h1, h2⟩⟩)
    · refine ⟨List.forall_mem_cons.mpr ⟨fun h => absurd h hk, h1⟩, ?_⟩
      rcases h2 with ⟨rfl, h2⟩ | ⟨l1, k', v', l2, rfl, h2⟩
      · exact .inl ⟨rfl, List.forall_mem_cons.mpr ⟨fun h => absurd h hk, h2⟩⟩
      · exact .inr ⟨_ :: l1, k', v', l2, rfl, h2⟩
    · refine ⟨List.forall_mem_cons.mpr ⟨fun _ => .inl rfl, h1⟩, ?_⟩
      rcases h2 with ⟨rfl, h2⟩ | ⟨l1, k', v', l2, rfl, h2⟩
      · exact .inl ⟨rfl, List.forall_mem_cons.mpr ⟨fun _ => rfl, h2⟩⟩
      · exact .inr ⟨_ :: l1, k', v', l2, rfl, h2⟩
    · refine ⟨List.forall_mem_cons.mpr ⟨fun _ => .inr ⟨y, hy⟩, h1⟩, ?_⟩
      rcases h2 with ⟨rfl, h2⟩ | ⟨l1, k', v', l2, rfl, h2⟩
      · exact .inr ⟨[], k, v, l, rfl, hk, hy, h2⟩
      · exact .inr ⟨_ :: l1, k', v', l2, rfl, h2⟩

theorem toStr_iff (c : Bytes) (v : Json) (y : Bytes) : Fiii.toStr c v = some y ↔ (v = .null ∧ c = y) ∨ ReadsText v y := by
  unfold ReadsText
  cases v <;> simp [Fiii.toStr]

theorem toU64_iff (c : UInt64) (v : Json) (y : UInt64) : toU64 c v = some y ↔ (v = .null ∧ c = y) ∨ ReadsNat 64 v y.toNat := by
  unfold ReadsNat
  cases v with
  | num t =>
    simp only [toU64, Option.map_eq_some_iff, reduceCtorEq, false_and, false_or, Json.num.injEq]
    constructor
    · rintro ⟨n, h, rfl⟩
      have h := (C121_range 64 t n).mp h
      rw [UInt64.toNat_ofNat', Nat.mod_eq_of_lt h.2.2]
      exact ⟨t, rfl, h⟩
    · rintro ⟨t', rfl, h⟩
      exact ⟨y.toNat, (C121_range 64 _ _).mpr h, by simp⟩
  | null => simp [toU64]
  | _ => simp [toU64]

theorem toU32_iff (c : UInt32) (v : Json) (y : UInt32) : toU32 c v = some y ↔ (v = .null ∧ c = y) ∨ ReadsNat 32 v y.toNat := by
  unfold ReadsNat
  cases v with
  | num t =>
    simp only [toU32, Option.map_eq_some_iff, reduceCtorEq, false_and, false_or, Json.num.injEq]
    constructor
    · rintro ⟨n, h, rfl⟩
      have h := (C121_range 32 t n).mp h
      rw [UInt32.toNat_ofNat', Nat.mod_eq_of_lt h.2.2]
      exact ⟨t, rfl, h⟩
    · rintro ⟨t', rfl, h⟩
      exact ⟨y.toNat, (C121_range 32 _ _).mpr h, by simp⟩
  | null => simp [toU32]
  | _ => simp [toU32]

/-- The ten fields. -/
def TenFields (mine : Nat → Bytes → Prop) (c : TxStruct) (l : List (Bytes × Json)) (ts : TxStruct) : Prop :=
  FieldIs (mine 0) ReadsText c.senderPubkey l ts.senderPubkey ∧ FieldIs (mine 1) ReadsText c.recipientPubkey l ts.recipientPubkey ∧
  FieldIs (mine 2) (fun v (n : UInt64) => ReadsNat 64 v n.toNat) c.amount l ts.amount ∧
  FieldIs (mine 3) (fun v (n : UInt64) => ReadsNat 64 v n.toNat) c.nonce l ts.nonce ∧
  FieldIs (mine 4) (fun v (n : UInt64) => ReadsNat 64 v n.toNat) c.fee l ts.fee ∧
  FieldIs (mine 5) (fun v (n : UInt64) => ReadsNat 64 v n.toNat) c.blockHeight l ts.blockHeight ∧
  FieldIs (mine 6) ReadsText c.blockHash l ts.blockHash ∧ FieldIs (mine 7) ReadsText c.genesisHash l ts.genesisHash ∧
  FieldIs (mine 8) (fun v (n : UInt32) => ReadsNat 32 v n.toNat) c.specVersion l ts.specVersion ∧
  FieldIs (mine 9) (fun v (n : UInt32) => ReadsNat 32 v n.toNat) c.txVersion l ts.txVersion

theorem setFields_iff (fold : Bytes → Bytes → Bool) : ∀ (l : List (Bytes × Json)) (c ts : TxStruct),
    Fiii.setFields fold txNames setTx c l = some ts ↔ TenFields (fun i k => Fiii.field fold txNames k = some i) c l ts
  | [], c, ts => by
    simp only [Fiii.setFields, TenFields, fieldIs_nil, Option.some.injEq]
    constructor
    · rintro rfl; simp
    · rintro ⟨h0, h1, h2, h3, h4, h5, h6, h7, h8, h9⟩
      cases ts; cases c
      simp_all
  | (k, v) :: l, c, ts => by
    have ih := setFields_iff fold l
    cases hf : Fiii.field fold txNames k with
    | none =>
      rw [Fiii.setFields, hf]
      dsimp only
      rw [ih]
      unfold TenFields
      simp only [fieldIs_cons, hf, reduceCtorEq, not_false_eq_true, true_and, false_and, or_false]
    | some i =>
      have hi : i < 10 := by
        unfold Fiii.field at hf
        split at hf
        · rename_i j hj
          cases hf
          exact (List.findIdx?_eq_some_iff_getElem.mp hj).1
        · exact (List.findIdx?_eq_some_iff_getElem.mp hf).1
      have step : Fiii.setFields fold txNames setTx c ((k, v) :: l) = some ts ↔ ∃ c', setTx c i v = some c' ∧ Fiii.setFields fold txNames setTx c' l = some ts := by
        rw [Fiii.setFields, hf]
        dsimp only
        cases setTx c i v <;> simp
      rw [step]
      match i, hi with
      | 0, _ | 1, _ | 2, _ | 3, _ | 4, _ | 5, _ | 6, _ | 7, _ | 8, _ | 9, _ =>
        simp only [ih]
        unfold TenFields
        simp only [fieldIs_cons, hf, Option.some.injEq, Nat.reduceEqDiff,
          OfNat.ofNat_ne_zero, OfNat.zero_ne_ofNat, zero_ne_one, one_ne_zero, OfNat.ofNat_ne_one, OfNat.one_ne_ofNat,
          not_false_eq_true, not_true_eq_false, true_and, false_and, or_false, false_or, setTx, Option.map_eq_some_iff, toStr_iff, toU64_iff, toU32_iff]
        constructor
        · rintro ⟨_, ⟨y, (⟨rfl, rfl⟩ | hy), rfl⟩, h0, h1, h2, h3, h4, h5, h6, h7, h8, h9⟩
          · refine ⟨?_, ?_, ?_, ?_, ?_, ?_, ?_, ?_, ?_, ?_⟩ <;> first | assumption | exact .inl ⟨rfl, by assumption⟩
          · refine ⟨?_, ?_, ?_, ?_, ?_, ?_, ?_, ?_, ?_, ?_⟩ <;> first | assumption | exact .inr ⟨_, hy, by assumption⟩
        · rintro ⟨h0, h1, h2, h3, h4, h5, h6, h7, h8, h9⟩
          first
          | (rcases h0 with ⟨rfl, h⟩ | ⟨y, hy, h⟩)
          | (rcases h1 with ⟨rfl, h⟩ | ⟨y, hy, h⟩)
          | (rcases h2 with ⟨rfl, h⟩ | ⟨y, hy, h⟩)
          | (rcases h3 with ⟨rfl, h⟩ | ⟨y, hy, h⟩)
          | (rcases h4 with ⟨rfl, h⟩ | ⟨y, hy, h⟩)
          | (rcases h5 with ⟨rfl, h⟩ | ⟨y, hy, h⟩)
          | (rcases h6 with ⟨rfl, h⟩ | ⟨y, hy, h⟩)
          | (rcases h7 with ⟨rfl, h⟩ | ⟨y, hy, h⟩)
          | (rcases h8 with ⟨rfl, h⟩ | ⟨y, hy, h⟩)
          | (rcases h9 with ⟨rfl, h⟩ | ⟨y, hy, h⟩)
          · exact ⟨_, ⟨_, .inl ⟨rfl, rfl⟩, rfl⟩, by refine ⟨?_, ?_, ?_, ?_, ?_, ?_, ?_, ?_, ?_, ?_⟩ <;> assumption⟩
          · exact ⟨_, ⟨_, .inr hy, rfl⟩, by refine ⟨?_, ?_, ?_, ?_, ?_, ?_, ?_, ?_, ?_, ?_⟩ <;> assumption⟩

end Polkadot
open Polkadot

/-- C121, reading any text: a JSON object is read as a transfer exactly if each of the ten fields has the value of the last member that belongs to it and is
not null, or is empty or zero if there is none; and all members that belong to a field are null or have a value for it, a number being written with decimal
digits and in range. Other members do not matter, nor does the order. -/
theorem C121_read_any (fold : Bytes → Bytes → Bool) (text : Bytes) (l : List (Bytes × Json)) (h : IsJson text (.obj l)) (ts : TxStruct) :
    let mine := fun name => Mine fold [asc "sender_pubkey", asc "recipient_pubkey", asc "amount", asc "nonce", asc "fee", asc "block_height", asc "block_hash",
      asc "genesis_hash", asc "spec_version", asc "txVersion"] (asc name)
    let isText := fun name x => FieldIs (mine name) ReadsText [] l x
    let isU64 := fun name (x : UInt64) => FieldIs (mine name) (fun v (n : UInt64) => ReadsNat 64 v n.toNat) 0 l x
    let isU32 := fun name (x : UInt32) => FieldIs (mine name) (fun v (n : UInt32) => ReadsNat 32 v n.toNat) 0 l x
    fromText fold text = some ts ↔
      isText "sender_pubkey" ts.senderPubkey ∧ isText "recipient_pubkey" ts.recipientPubkey ∧ isU64 "amount" ts.amount ∧ isU64 "nonce" ts.nonce ∧
      isU64 "fee" ts.fee ∧ isU64 "block_height" ts.blockHeight ∧ isText "block_hash" ts.blockHash ∧ isText "genesis_hash" ts.genesisHash ∧
      isU32 "spec_version" ts.specVersion ∧ isU32 "txVersion" ts.txVersion := by
  intro mine isText isU64 isU32
  unfold fromText
  rw [parse_json h]
  dsimp only [Fiii.toStruct]
  rw [setFields_iff]
  have hn : txNames.Nodup := by decide +kernel
  have e : ∀ i name, txNames[i]? = some (asc name) → (fun k => Fiii.field fold txNames k = some i) = mine name := by
    intro i name hi
    funext k
    exact propext (field_iff fold txNames hn i _ hi k)
  unfold TenFields
  dsimp only
  rw [e 0 "sender_pubkey" rfl, e 1 "recipient_pubkey" rfl, e 2 "amount" rfl, e 3 "nonce" rfl, e 4 "fee" rfl, e 5 "block_height" rfl, e 6 "block_hash" rfl,
    e 7 "genesis_hash" rfl, e 8 "spec_version" rfl, e 9 "txVersion" rfl]
  rfl

/-- Members in another order, twice, null and unknown: the last amount that is not null counts. A number that does not fit makes the whole text unreadable, also
when a later member would replace it. -/
example : fromText (fun a b => a = asc "AMOUNT" ∧ b = asc "amount") (asc "{\"nonce\":7,\"amount\":5,\"x\":[1],\"AMOUNT\":6,\"amount\":null,\"fee\":null}") =
      some { zeroTx with amount := 6, nonce := 7 } ∧
    fromText (fun _ _ => false) (asc "{\"nonce\":18446744073709551616,\"nonce\":1}") = none := by decide +kernel

end Verif
