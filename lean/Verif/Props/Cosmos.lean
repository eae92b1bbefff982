import Verif.Model.Cosmos
import Verif.Spec.Cosmos
import Verif.Lemmas.Json
import Verif.Lemmas.Base64
import Verif.Lemmas.Hex
import Verif.Lemmas.Bech32RT
import Verif.Props.BtcSig

/-! Cosmos and Evaio transfers. -/

namespace Verif
open Verif Verif.Spec Verif.Json Verif.Cosmos

namespace Cosmos

theorem ascii_utf8 {s : Bytes} (h : ∀ b ∈ s, b.toNat < 128) : IsUtf8 s := by
  refine ⟨s.map UInt8.toNat, ?_, ?_⟩
  · intro c hc
    obtain ⟨b, hb, rfl⟩ := List.mem_map.mp hc
    exact Or.inl (by have := h b hb; omega)
  · induction s with
    | nil => rfl
    | cons b s ih =>
      rw [List.map_cons, List.flatMap_cons, ← ih (fun x hx => h x (by simp [hx])), utf8_ascii (h b (by simp))]
      simp

theorem decimal_utf8 {t : Bytes} {n : Int} (h : IsDecimal t n) : IsUtf8 t := by
  apply ascii_utf8
  rcases h with ⟨k, _, hd⟩ | ⟨k, ds, _, _, rfl, hd⟩
  · intro b hb; have := hd.2.1 b hb; omega
  · intro b hb
    rcases List.mem_cons.mp hb with rfl | hb
    · decide
    · have := hd.2.1 b hb; omega

theorem asc_utf8 (s : String) (h : ∀ b ∈ asc s, b.toNat < 128) : IsUtf8 (asc s) := ascii_utf8 h

/-- All strings of a coin list are UTF-8. -/
def CoinsUtf8 (l : Slice Coin) : Prop := ∀ c ∈ l.getD [], IsUtf8 c.amount ∧ IsUtf8 c.denom

/-- All strings of a transaction are UTF-8. -/
def TxUtf8 (t : TxStruct) : Prop :=
  IsUtf8 t.accountNumber ∧ IsUtf8 t.chainID ∧ (CoinsUtf8 t.fee.amount ∧ IsUtf8 t.fee.gas) ∧ IsUtf8 t.memo ∧ IsUtf8 t.sequence ∧
    ∀ m ∈ t.message.getD [], IsUtf8 m.type ∧ CoinsUtf8 m.value.amount ∧ IsUtf8 m.value.fromAddress ∧ IsUtf8 m.value.toAddress

theorem clean_slice {α : Type} {f : α → Json} {l : Slice α} (h : ∀ x ∈ l.getD [], Clean (f x)) : Clean (sliceJson f l) := by
  cases l with
  | none => exact Clean.null
  | some l =>
    refine Clean.arr _ ?_
    intro v hv
    obtain ⟨x, hx, rfl⟩ := List.mem_map.mp hv
    exact h x hx

theorem clean_coins {l : Slice Coin} (h : CoinsUtf8 l) : Clean (sliceJson coinJson l) := by
  apply clean_slice
  intro c hc
  obtain ⟨h1, h2⟩ := h c hc
  refine Clean.obj _ ?_ ?_ <;> intro m hm <;> simp only [List.mem_cons, List.not_mem_nil, or_false] at hm
  · rcases hm with rfl | rfl <;> exact asc_utf8 _ (by decide)
  · rcases hm with rfl | rfl
    · exact Clean.str _ h1
    · exact Clean.str _ h2

theorem clean_fee {f : FeeStruct} (h : CoinsUtf8 f.amount ∧ IsUtf8 f.gas) : Clean (feeJson f) := by
  refine Clean.obj _ ?_ ?_ <;> intro m hm <;> simp only [List.mem_cons, List.not_mem_nil, or_false] at hm
  · rcases hm with rfl | rfl <;> exact asc_utf8 _ (by decide)
  · rcases hm with rfl | rfl
    · exact clean_coins h.1
    · exact Clean.str _ h.2

theorem clean_message {m : Message} (h : IsUtf8 m.type ∧ CoinsUtf8 m.value.amount ∧ IsUtf8 m.value.fromAddress ∧ IsUtf8 m.value.toAddress) :
    Clean (messageJson m) := by
  refine Clean.obj _ ?_ ?_ <;> intro m hm <;> simp only [List.mem_cons, List.not_mem_nil, or_false] at hm
  · rcases hm with rfl | rfl <;> exact asc_utf8 _ (by decide)
  · rcases hm with rfl | rfl
    · exact Clean.str _ h.1
    · refine Clean.obj _ ?_ ?_ <;> intro m hm <;> simp only [List.mem_cons, List.not_mem_nil, or_false] at hm
      · rcases hm with rfl | rfl | rfl <;> exact asc_utf8 _ (by decide)
      · rcases hm with rfl | rfl | rfl
        · exact clean_coins h.2.1
        · exact Clean.str _ h.2.2.1
        · exact Clean.str _ h.2.2.2

theorem clean_tx {t : TxStruct} (h : TxUtf8 t) : Clean (txJson t) := by
  obtain ⟨h1, h2, h3, h4, h5, h6⟩ := h
  refine Clean.obj _ ?_ ?_ <;> intro m hm <;> simp only [List.mem_cons, List.not_mem_nil, or_false] at hm
  · rcases hm with rfl | rfl | rfl | rfl | rfl | rfl <;> exact asc_utf8 _ (by decide)
  · rcases hm with rfl | rfl | rfl | rfl | rfl | rfl
    · exact Clean.str _ h1
    · exact Clean.str _ h2
    · exact clean_fee h3
    · exact Clean.str _ h4
    · exact clean_slice fun m hm => clean_message (h6 m hm)
    · exact Clean.str _ h5

theorem sorted_coin (c : Coin) : Sorted (coinJson c) := by
  refine Sorted.obj _ (by simp only [List.map_cons, List.map_nil]; decide) ?_
  intro m hm
  simp only [List.mem_cons, List.not_mem_nil, or_false] at hm
  rcases hm with rfl | rfl <;> exact Sorted.str _

theorem sorted_slice {α : Type} {f : α → Json} (h : ∀ x, Sorted (f x)) (l : Slice α) : Sorted (sliceJson f l) := by
  cases l with
  | none => exact Sorted.null
  | some l =>
    refine Sorted.arr _ ?_
    intro v hv
    obtain ⟨x, _, rfl⟩ := List.mem_map.mp hv
    exact h x

theorem sorted_message (m : Message) : Sorted (messageJson m) := by
  refine Sorted.obj _ (by simp only [List.map_cons, List.map_nil]; decide) ?_
  intro m hm
  simp only [List.mem_cons, List.not_mem_nil, or_false] at hm
  rcases hm with rfl | rfl
  · exact Sorted.str _
  · refine Sorted.obj _ (by simp only [List.map_cons, List.map_nil]; decide) ?_
    intro m hm
    simp only [List.mem_cons, List.not_mem_nil, or_false] at hm
    rcases hm with rfl | rfl | rfl
    · exact sorted_slice sorted_coin _
    · exact Sorted.str _
    · exact Sorted.str _

theorem sorted_tx (t : TxStruct) : Sorted (txJson t) := by
  refine Sorted.obj _ (by simp only [List.map_cons, List.map_nil]; decide) ?_
  intro m hm
  simp only [List.mem_cons, List.not_mem_nil, or_false] at hm
  rcases hm with rfl | rfl | rfl | rfl | rfl | rfl
  · exact Sorted.str _
  · exact Sorted.str _
  · refine Sorted.obj _ (by simp only [List.map_cons, List.map_nil]; decide) ?_
    intro m hm
    simp only [List.mem_cons, List.not_mem_nil, or_false] at hm
    rcases hm with rfl | rfl
    · exact sorted_slice sorted_coin _
    · exact Sorted.str _
  · exact Sorted.str _
  · exact sorted_slice sorted_message _
  · exact Sorted.str _

/-- The coins as the caller makes them: `Coins{NewCoin(denom, amount), ...}`. -/
def coinsOf (l : List Spec.Cosmos.Coin) : Slice Coin := some (l.map fun c => newCoin c.denom c.amount)

/-- A transfer as the caller makes it: `NewMessage(type, NewMsgSend(from, to, coins))`. -/
def messageOf (m : Spec.Cosmos.Msg) : Message := newMessage m.type (newMsgSend m.sender m.recipient (coinsOf m.amount))

/-- The texts of the request are UTF-8. -/
def RequestUtf8 (chainID memo : Bytes) (fee : List Spec.Cosmos.Coin) (msgs : List Spec.Cosmos.Msg) : Prop :=
  IsUtf8 chainID ∧ IsUtf8 memo ∧ (∀ c ∈ fee, IsUtf8 c.denom) ∧
    ∀ m ∈ msgs, IsUtf8 m.type ∧ IsUtf8 m.sender ∧ IsUtf8 m.recipient ∧ ∀ c ∈ m.amount, IsUtf8 c.denom

theorem newCoin_of {d : Bytes} {a : Int} (h : a ≠ 0) : newCoin d a = ⟨formatInt a, d⟩ := by
  unfold newCoin; rw [if_neg h]

theorem coins_spec {l : List Spec.Cosmos.Coin} (h : ∀ c ∈ l, c.amount ≠ 0) : Spec.Cosmos.IsCoins l (sliceJson coinJson (coinsOf l)) := by
  refine ⟨_, ?_, rfl⟩
  rw [List.map_map]
  induction l with
  | nil => exact List.Forall₂.nil
  | cons c l ih =>
    refine List.Forall₂.cons ?_ (ih fun x hx => h x (by simp [hx]))
    simp only [Function.comp_apply, newCoin_of (h c (by simp))]
    exact ⟨_, formatInt_decimal _, rfl⟩

theorem msgs_spec {l : List Spec.Cosmos.Msg} (h : ∀ m ∈ l, ∀ c ∈ m.amount, c.amount ≠ 0) :
    Spec.Cosmos.IsMsgs l (sliceJson messageJson (some (l.map messageOf))) := by
  refine ⟨_, ?_, rfl⟩
  rw [List.map_map]
  induction l with
  | nil => exact List.Forall₂.nil
  | cons m l ih =>
    refine List.Forall₂.cons ?_ (ih fun x hx => h x (by simp [hx]))
    exact ⟨_, coins_spec (h m (by simp)), rfl⟩

theorem coins_utf8 {l : List Spec.Cosmos.Coin} (h : ∀ c ∈ l, IsUtf8 c.denom) : CoinsUtf8 (coinsOf l) := by
  intro c hc
  obtain ⟨x, hx, rfl⟩ := List.mem_map.mp hc
  unfold newCoin
  split
  · exact ⟨⟨[], by simp, rfl⟩, ⟨[], by simp, rfl⟩⟩
  · exact ⟨decimal_utf8 (formatInt_decimal _), h x hx⟩

theorem formatInt_ne (n : Int) : formatInt n ≠ [] := by
  rcases formatInt_decimal n with ⟨k, _, hd⟩ | ⟨k, ds, _, _, e, _⟩
  · exact hd.1
  · rw [e]; simp

/-- A two-transfer request of the examples. -/
def demoMsgs : List Spec.Cosmos.Msg :=
  [⟨asc "cosmos-sdk/MsgSend", asc "cosmos1x9rdj3pgk9l3fvuj0fzxwa38vz276ljcysewnn", asc "cosmos1xv66sa5tlplm68j4fec6stdzszg3pcvswag06j", [⟨asc "muon", 1000000⟩]⟩,
   ⟨asc "cosmos-sdk/MsgSend", asc "a\"b", asc "c", [⟨asc "muon", 7⟩, ⟨asc "photino", -5⟩]⟩]

theorem demo_utf8 : RequestUtf8 (asc "gaia-13003") (asc "<memo>") [⟨asc "muon", 20⟩] demoMsgs := by
  refine ⟨asc_utf8 _ (by decide), asc_utf8 _ (by decide), ?_, ?_⟩
  · intro c hc
    simp only [List.mem_cons, List.not_mem_nil, or_false] at hc
    subst hc; exact asc_utf8 _ (by decide)
  · intro m hm
    simp only [demoMsgs, List.mem_cons, List.not_mem_nil, or_false] at hm
    rcases hm with rfl | rfl <;> refine ⟨asc_utf8 _ (by decide), asc_utf8 _ (by decide), asc_utf8 _ (by decide), ?_⟩ <;> intro c hc <;>
      simp only [List.mem_cons, List.not_mem_nil, or_false] at hc
    · subst hc; exact asc_utf8 _ (by decide)
    · rcases hc with rfl | rfl <;> exact asc_utf8 _ (by decide)

end Cosmos

/-! ### C94: the sign document -/

/-- C94, restricted: for every chain, memo, account number, sequence, gas, transfers of non-zero amounts, and fee that is either a non-empty list of non-zero
coins or one zero coin, the returned text is the sign document of the Cosmos SDK with exactly these contents (the fee without zero coins), in
canonical form (no white space, member names in order), and the returned hash is its SHA-256. Missing: other fees, zero amounts (see the
violations) and texts that are not UTF-8 (C95). -/
theorem C94_sign_document_partial (H : Hashes) (chainID memo : Bytes) (acc seq gas : Int) (fee : List Spec.Cosmos.Coin) (msgs : List Spec.Cosmos.Msg)
    (hfee : (fee ≠ [] ∧ ∀ c ∈ fee, c.amount ≠ 0) ∨ ∃ d, fee = [⟨d, 0⟩]) (hmsg : ∀ m ∈ msgs, ∀ c ∈ m.amount, c.amount ≠ 0)
    (hu : RequestUtf8 chainID memo fee msgs) :
    ∃ tx fee' j, newTxStruct chainID memo acc seq (newStdFee gas (coinsOf fee)) (some (msgs.map messageOf)) = .ok (tx, fee') ∧
      Spec.Cosmos.IsSignDoc ⟨chainID, acc, seq, memo, gas, fee.filter (fun c => c.amount ≠ 0), msgs⟩ j ∧ Sorted j ∧
      IsJson (createEmptyTransactionAndHash H tx).1 j ∧
      (createEmptyTransactionAndHash H tx).2 = Hex.encode (H.hash .sha256 (createEmptyTransactionAndHash H tx).1) := by
  obtain ⟨u1, u2, u3, u4⟩ := hu
  have key : ∀ fee'' : List Spec.Cosmos.Coin, (∀ c ∈ fee'', c.amount ≠ 0) → (∀ c ∈ fee'', IsUtf8 c.denom) →
      ∀ tx : TxStruct, tx = ⟨formatInt acc, chainID, ⟨coinsOf fee'', formatInt gas⟩, memo, some (msgs.map messageOf), formatInt seq⟩ →
      Spec.Cosmos.IsSignDoc ⟨chainID, acc, seq, memo, gas, fee'', msgs⟩ (txJson tx) ∧ Sorted (txJson tx) ∧
      IsJson (createEmptyTransactionAndHash H tx).1 (txJson tx) ∧
      (createEmptyTransactionAndHash H tx).2 = Hex.encode (H.hash .sha256 (createEmptyTransactionAndHash H tx).1) := by
    rintro fee'' h1 h2 tx rfl
    refine ⟨⟨_, _, _, _, formatInt_decimal _, formatInt_decimal _, ⟨_, _, coins_spec h1, formatInt_decimal _, rfl⟩, msgs_spec hmsg, rfl⟩,
      sorted_tx _, marshal_json (clean_tx ?_), rfl⟩
    refine ⟨decimal_utf8 (formatInt_decimal _), u1, ⟨coins_utf8 h2, decimal_utf8 (formatInt_decimal _)⟩, u2, decimal_utf8 (formatInt_decimal _), ?_⟩
    intro m hm
    obtain ⟨x, hx, rfl⟩ := List.mem_map.mp hm
    obtain ⟨v1, v2, v3, v4⟩ := u4 x hx
    exact ⟨v1, coins_utf8 v4, v2, v3⟩
  rcases hfee with ⟨hne, hnz⟩ | ⟨d, rfl⟩
  · have hf : fee.filter (fun c => c.amount ≠ 0) = fee := List.filter_eq_self.mpr fun c hc => by simpa using hnz c hc
    rw [hf]
    cases fee with
    | nil => exact absurd rfl hne
    | cons c fee =>
      refine ⟨⟨formatInt acc, chainID, ⟨coinsOf (c :: fee), formatInt gas⟩, memo, some (msgs.map messageOf), formatInt seq⟩,
        ⟨coinsOf (c :: fee), formatInt gas⟩, _, ?_, key (c :: fee) hnz u3 _ rfl⟩
      unfold newTxStruct newStdFee coinsOf
      simp only [Option.getD_some, List.map_cons, index, List.getElem?_cons_zero, Res.bind_ok]
      rw [newCoin_of (hnz c (by simp)), if_neg (formatInt_ne _)]
  · have hf : [(⟨d, 0⟩ : Spec.Cosmos.Coin)].filter (fun c => c.amount ≠ 0) = [] := by simp
    rw [hf]
    exact ⟨⟨formatInt acc, chainID, ⟨coinsOf [], formatInt gas⟩, memo, some (msgs.map messageOf), formatInt seq⟩, ⟨coinsOf [], formatInt gas⟩, _, rfl,
      key [] (by simp) (by simp) _ rfl⟩

example : ([⟨asc "muon", 20⟩] : List Spec.Cosmos.Coin) ≠ [] ∧ (∀ m ∈ demoMsgs, ∀ c ∈ m.amount, c.amount ≠ 0) ∧
    RequestUtf8 (asc "gaia-13003") (asc "<memo>") [⟨asc "muon", 20⟩] demoMsgs := ⟨by simp, by decide, demo_utf8⟩

/-- The text for a plain transfer. -/
example : (newTxStruct (asc "gaia") (asc "hi") 18 2 (newStdFee 200 (coinsOf [⟨asc "muon", 0⟩])) (some [messageOf ⟨asc "t", asc "f", asc "r", [⟨asc "muon", 10⟩]⟩]) >>=
    fun r => Res.ok (createEmptyTransactionAndHash toyHashes r.1).1) =
  .ok (asc "{\"account_number\":\"18\",\"chain_id\":\"gaia\",\"fee\":{\"amount\":[],\"gas\":\"200\"},\"memo\":\"hi\",\"msgs\":[{\"type\":\"t\",\"value\":{\"amount\":[{\"amount\":\"10\",\"denom\":\"muon\"}],\"from_address\":\"f\",\"to_address\":\"r\"}}],\"sequence\":\"2\"}") := by
  decide +kernel

/-- Where C94 fails (1): without fee coins `NewTxStruct` panics, for every request. -/
theorem C94_no_fee_violated (chainID memo : Bytes) (acc seq gas : Int) (msgs : Slice Message) :
    newTxStruct chainID memo acc seq (newStdFee gas (coinsOf [])) msgs = .panic ∧
      newTxStruct chainID memo acc seq (newStdFee gas none) msgs = .panic := ⟨rfl, rfl⟩

/-- Where C94 fails (2): when the first fee coin is zero all others are dropped: the document is the one of a transaction without fee. -/
theorem C94_fee_dropped_violated (chainID memo d : Bytes) (acc seq gas : Int) (rest : List Spec.Cosmos.Coin) (msgs : Slice Message) :
    newTxStruct chainID memo acc seq (newStdFee gas (coinsOf (⟨d, 0⟩ :: rest))) msgs =
      newTxStruct chainID memo acc seq (newStdFee gas (coinsOf [⟨d, 0⟩])) msgs := by
  rfl

namespace Cosmos

/-- The value written for a zero coin is the one of no coin. -/
theorem zero_coin (d : Bytes) (c : Spec.Cosmos.Coin) : ¬ Spec.Cosmos.IsCoin c (coinJson (newCoin d 0)) := by
  rintro ⟨a, ha, e⟩
  have e' : coinJson (newCoin d 0) = .obj [(asc "amount", .str []), (asc "denom", .str [])] := rfl
  rw [e'] at e
  simp only [Json.obj.injEq, List.cons.injEq, Prod.mk.injEq, Json.str.injEq, true_and, and_true] at e
  rw [← e.1] at ha
  rcases ha with ⟨k, _, hd⟩ | ⟨k, ds, _, _, e, _⟩
  · exact hd.1 rfl
  · cases e

theorem zero_coins {l : List Spec.Cosmos.Coin} (h : ∃ c ∈ l, c.amount = 0) (l' : List Spec.Cosmos.Coin) :
    ¬ Spec.Cosmos.IsCoins l' (sliceJson coinJson (coinsOf l)) := by
  rintro ⟨cs, hf, e⟩
  obtain ⟨⟨d, z⟩, hc, rfl⟩ := h
  simp only [coinsOf, sliceJson, Json.arr.injEq] at e
  have hm : coinJson (newCoin d 0) ∈ cs := by
    rw [← e, List.map_map]
    exact List.mem_map.mpr ⟨_, hc, rfl⟩
  obtain ⟨i, hi, hg⟩ := List.mem_iff_getElem.mp hm
  rw [List.forall₂_iff_get] at hf
  have := hf.2 i (by rw [hf.1]; exact hi) hi
  simp only [List.get_eq_getElem, hg] at this
  exact zero_coin _ _ this

end Cosmos

/-- Where C94 fails (3): if a zero coin comes later in the fee, or in a transfer, then the text returned is not the sign document of *any*
request: the coin is written with an empty amount. -/
theorem C94_zero_coin_violated (H : Hashes) (chainID memo : Bytes) (acc seq gas : Int) (first : Spec.Cosmos.Coin) (later : List Spec.Cosmos.Coin)
    (msgs : List Spec.Cosmos.Msg) (hz : (first.amount ≠ 0 ∧ ∃ c ∈ later, c.amount = 0) ∨ ∃ m ∈ msgs, ∃ c ∈ m.amount, c.amount = 0)
    (hu : RequestUtf8 chainID memo (first :: later) msgs) :
    ∃ tx fee', newTxStruct chainID memo acc seq (newStdFee gas (coinsOf (first :: later))) (some (msgs.map messageOf)) = .ok (tx, fee') ∧
      ∀ d j, IsJson (createEmptyTransactionAndHash H tx).1 j → ¬ Spec.Cosmos.IsSignDoc d j := by
  obtain ⟨u1, u2, u3, u4⟩ := hu
  have key : ∀ fee : List Spec.Cosmos.Coin, (∀ c ∈ fee, IsUtf8 c.denom) → ((∃ c ∈ fee, c.amount = 0) ∨ ∃ m ∈ msgs, ∃ c ∈ m.amount, c.amount = 0) →
      ∀ tx : TxStruct, tx = ⟨formatInt acc, chainID, ⟨coinsOf fee, formatInt gas⟩, memo, some (msgs.map messageOf), formatInt seq⟩ →
      ∀ d j, IsJson (createEmptyTransactionAndHash H tx).1 j → ¬ Spec.Cosmos.IsSignDoc d j := by
    rintro fee h2 hz tx rfl d j hj
    have hclean := marshal_json (clean_tx (t := ⟨formatInt acc, chainID, ⟨coinsOf fee, formatInt gas⟩, memo, some (msgs.map messageOf), formatInt seq⟩) (by
      refine ⟨decimal_utf8 (formatInt_decimal _), u1, ⟨coins_utf8 h2, decimal_utf8 (formatInt_decimal _)⟩, u2, decimal_utf8 (formatInt_decimal _), ?_⟩
      intro m hm
      obtain ⟨x, hx, rfl⟩ := List.mem_map.mp hm
      obtain ⟨v1, v2, v3, v4⟩ := u4 x hx
      exact ⟨v1, coins_utf8 v4, v2, v3⟩))
    obtain rfl := json_unique hj hclean
    rintro ⟨a, s, jf, jm, -, -, ⟨cs, g, hcs, -, rfl⟩, ⟨ms, hms, rfl⟩, e⟩
    simp only [txJson, feeJson, sliceJson, Json.obj.injEq, List.cons.injEq, Prod.mk.injEq, true_and, and_true, Json.arr.injEq] at e
    obtain ⟨-, -, ⟨e1, -⟩, -, e2, -⟩ := e
    rcases hz with hz | ⟨m, hm, hz⟩
    · exact zero_coins hz _ (e1 ▸ hcs)
    · have hmem : messageJson (messageOf m) ∈ ms := by
        rw [← e2, List.map_map]
        exact List.mem_map.mpr ⟨_, hm, rfl⟩
      obtain ⟨i, hi, hg⟩ := List.mem_iff_getElem.mp hmem
      rw [List.forall₂_iff_get] at hms
      obtain ⟨cs', hcs', e'⟩ := hms.2 i (by rw [hms.1]; exact hi) hi
      simp only [List.get_eq_getElem, hg, messageJson, messageOf, newMessage, newMsgSend, Json.obj.injEq, List.cons.injEq, Prod.mk.injEq,
        true_and, and_true] at e'
      exact zero_coins hz _ (by rw [e'.2.1]; exact hcs')
  by_cases h0 : first.amount = 0
  · obtain ⟨d, z⟩ := first
    simp only at h0
    subst h0
    exact ⟨_, _, rfl, key [] (by simp) (by
      rcases hz with ⟨h, -⟩ | h
      · exact absurd rfl h
      · exact Or.inr h) _ rfl⟩
  · refine ⟨⟨formatInt acc, chainID, ⟨coinsOf (first :: later), formatInt gas⟩, memo, some (msgs.map messageOf), formatInt seq⟩,
      ⟨coinsOf (first :: later), formatInt gas⟩, ?_, key (first :: later) u3 (by
        rcases hz with ⟨-, c, h1, h2⟩ | h
        · exact Or.inl ⟨c, by simp [h1], h2⟩
        · exact Or.inr h) _ rfl⟩
    unfold newTxStruct newStdFee coinsOf
    simp only [Option.getD_some, List.map_cons, index, List.getElem?_cons_zero, Res.bind_ok]
    rw [newCoin_of h0, if_neg (formatInt_ne _)]

example : ∃ tx fee', newTxStruct (asc "gaia") [] 1 2 (newStdFee 3 (coinsOf [⟨asc "muon", 20⟩, ⟨asc "photino", 0⟩])) (some []) = .ok (tx, fee') ∧
    ∀ d j, IsJson (createEmptyTransactionAndHash toyHashes tx).1 j → ¬ Spec.Cosmos.IsSignDoc d j :=
  C94_zero_coin_violated _ _ _ _ _ _ ⟨asc "muon", 20⟩ [⟨asc "photino", 0⟩] [] (Or.inl ⟨by decide, _, List.mem_singleton.mpr rfl, rfl⟩) (by
    refine ⟨asc_utf8 _ (by decide), ⟨[], by simp, rfl⟩, ?_, by simp⟩
    intro c hc
    simp only [List.mem_cons, List.not_mem_nil, or_false] at hc
    rcases hc with rfl | rfl <;> exact asc_utf8 _ (by decide))

/-- Where C94 fails (4): a fee of one zero coin is emptied by its first use; using it for a second transaction panics. -/
theorem C94_fee_reuse_violated (chainID memo chainID' memo' d : Bytes) (acc seq acc' seq' gas : Int) (msgs msgs' : Slice Message) :
    ∃ tx fee', newTxStruct chainID memo acc seq (newStdFee gas (coinsOf [⟨d, 0⟩])) msgs = .ok (tx, fee') ∧
      newTxStruct chainID' memo' acc' seq' fee' msgs' = .panic := ⟨_, _, rfl, rfl⟩

/-! ### C95: different transactions have different texts -/

namespace Cosmos

theorem slice_inj {α : Type} {f : α → Json} (hf : ∀ x y, f x = f y → x = y) {a b : Slice α} (h : sliceJson f a = sliceJson f b) : a = b := by
  cases a <;> cases b <;> simp only [sliceJson, Json.arr.injEq, reduceCtorEq] at h
  · rfl
  · rw [List.map_inj_right (fun x y => hf x y)] at h
    rw [h]

theorem coinJson_inj (a b : Coin) (h : coinJson a = coinJson b) : a = b := by
  simp only [coinJson, Json.obj.injEq, List.cons.injEq, Prod.mk.injEq, Json.str.injEq, true_and, and_true] at h
  cases a; cases b
  simp only at h
  rw [h.1, h.2]

theorem messageJson_inj (a b : Message) (h : messageJson a = messageJson b) : a = b := by
  simp only [messageJson, Json.obj.injEq, List.cons.injEq, Prod.mk.injEq, Json.str.injEq, true_and, and_true] at h
  obtain ⟨at', av⟩ := a
  obtain ⟨bt, bv⟩ := b
  cases av; cases bv
  simp only at h
  rw [h.1, slice_inj coinJson_inj h.2.1, h.2.2.1, h.2.2.2]

theorem txJson_inj (a b : TxStruct) (h : txJson a = txJson b) : a = b := by
  simp only [txJson, feeJson, Json.obj.injEq, List.cons.injEq, Prod.mk.injEq, Json.str.injEq, true_and, and_true] at h
  obtain ⟨a1, a2, ⟨a3, a4⟩, a5, a6, a7⟩ := a
  obtain ⟨b1, b2, ⟨b3, b4⟩, b5, b6, b7⟩ := b
  simp only at h
  obtain ⟨h1, h2, ⟨h3, h4⟩, h5, h6, h7⟩ := h
  rw [h1, h2, slice_inj coinJson_inj h3, h4, h5, slice_inj messageJson_inj h6, h7]

end Cosmos

/-- C95, restricted: transactions with different contents (UTF-8 texts) have different sign texts. Missing: other texts, see
`C95_not_utf8_violated`. -/
theorem C95_sign_text_injective_partial (H : Hashes) (t t' : TxStruct) (hu : TxUtf8 t) (hu' : TxUtf8 t')
    (h : (createEmptyTransactionAndHash H t).1 = (createEmptyTransactionAndHash H t').1) : t = t' :=
  txJson_inj _ _ (marshal_inj (clean_tx hu) (clean_tx hu') h)

example : ∃ t t' : TxStruct, t ≠ t' ∧ TxUtf8 t ∧ TxUtf8 t' := by
  refine ⟨⟨asc "1", asc "c", ⟨some [⟨asc "5", asc "atom"⟩], asc "9"⟩, asc "m", some [], asc "0"⟩, ⟨asc "1", asc "c", ⟨none, asc "9"⟩, asc "m", none, asc "0"⟩,
    by decide, ?_, ?_⟩
  · refine ⟨asc_utf8 _ (by decide), asc_utf8 _ (by decide), ⟨?_, asc_utf8 _ (by decide)⟩, asc_utf8 _ (by decide), asc_utf8 _ (by decide), by simp⟩
    intro c hc
    simp only [Option.getD_some, List.mem_cons, List.not_mem_nil, or_false] at hc
    subst hc
    exact ⟨asc_utf8 _ (by decide), asc_utf8 _ (by decide)⟩
  · exact ⟨asc_utf8 _ (by decide), asc_utf8 _ (by decide), ⟨by intro c hc; simp at hc, asc_utf8 _ (by decide)⟩, asc_utf8 _ (by decide), asc_utf8 _ (by decide), by simp⟩

/-- Where C95 fails: bytes that are not UTF-8 are all written as the replacement character, so that transactions with different memos have
the same sign text, whatever the rest. -/
theorem C95_not_utf8_violated (H : Hashes) (t : TxStruct) :
    ({ t with memo := [0xff] } : TxStruct) ≠ { t with memo := [0xfe] } ∧
      createEmptyTransactionAndHash H { t with memo := [0xff] } = createEmptyTransactionAndHash H { t with memo := [0xfe] } := by
  refine ⟨by simp, ?_⟩
  have q : quote [0xff] = quote [0xfe] := by decide
  simp only [createEmptyTransactionAndHash, txJson, marshal, members, q]

/-! ### C96: the transaction sent is the one signed -/

/-- C96: for every transaction (UTF-8 texts), signature text and key the JSON handed out for sending has the signed transfers, fee and memo, and one signature: the
decoded signature and the key in base64, with the account number and sequence signed. A signature text that is not hexadecimal is an error. -/
theorem C96_cosmos_send (H : Hashes) (t : TxStruct) (signature pubkey keyType mode : Bytes) (hu : TxUtf8 t) (hk : IsUtf8 keyType) (hm : IsUtf8 mode) :
    (∀ sig, Hex.decode signature = .ok sig → ∃ text msgs fee acc seq sig64 pub64, createJsonForSend t signature pubkey keyType mode = .ok text ∧
      IsJson (createEmptyTransactionAndHash H t).1 (.obj [(asc "account_number", .str acc), (asc "chain_id", .str t.chainID), (asc "fee", fee),
        (asc "memo", .str t.memo), (asc "msgs", msgs), (asc "sequence", .str seq)]) ∧
      IsBase64 sig64 sig ∧ IsBase64 pub64 pubkey ∧
      IsJson text (.obj [(asc "tx", .obj [(asc "msg", msgs), (asc "fee", fee), (asc "memo", .str t.memo), (asc "signatures", .arr [
          .obj [(asc "signature", .str sig64), (asc "pub_key", .obj [(asc "type", .str keyType), (asc "value", .str pub64)]),
            (asc "account_number", .str acc), (asc "sequence", .str seq)]])]),
        (asc "mode", .str mode)])) ∧
    (Hex.decode signature = .err → createJsonForSend t signature pubkey keyType mode = .err) := by
  refine ⟨?_, fun h => by unfold createJsonForSend; rw [h]; rfl⟩
  intro sig hsig
  obtain ⟨h1, h2, h3, h4, h5, h6⟩ := id hu
  refine ⟨_, _, _, _, _, _, _, by unfold createJsonForSend; rw [hsig, Res.bind_ok]; rfl, marshal_json (clean_tx hu), Base64.encode_spec _, Base64.encode_spec _,
    marshal_json ?_⟩
  have b1 : IsUtf8 (Base64.encode sig) := ascii_utf8 (Base64.encode_ascii _)
  have b2 : IsUtf8 (Base64.encode pubkey) := ascii_utf8 (Base64.encode_ascii _)
  refine Clean.obj _ ?_ ?_ <;> intro m hm' <;> simp only [List.mem_cons, List.not_mem_nil, or_false] at hm'
  · rcases hm' with rfl | rfl <;> exact asc_utf8 _ (by decide)
  rcases hm' with rfl | rfl
  · refine Clean.obj _ ?_ ?_ <;> intro m hm' <;> simp only [List.mem_cons, List.not_mem_nil, or_false] at hm'
    · rcases hm' with rfl | rfl | rfl | rfl <;> exact asc_utf8 _ (by decide)
    rcases hm' with rfl | rfl | rfl | rfl
    · exact clean_slice fun m hm => clean_message (h6 m hm)
    · exact clean_fee h3
    · exact Clean.str _ h4
    · refine Clean.arr _ ?_
      intro v hv
      simp only [List.mem_cons, List.not_mem_nil, or_false] at hv
      subst hv
      refine Clean.obj _ ?_ ?_ <;> intro m hm' <;> simp only [List.mem_cons, List.not_mem_nil, or_false] at hm'
      · rcases hm' with rfl | rfl | rfl | rfl <;> exact asc_utf8 _ (by decide)
      rcases hm' with rfl | rfl | rfl | rfl
      · exact Clean.str _ b1
      · refine Clean.obj _ ?_ ?_ <;> intro m hm' <;> simp only [List.mem_cons, List.not_mem_nil, or_false] at hm'
        · rcases hm' with rfl | rfl <;> exact asc_utf8 _ (by decide)
        rcases hm' with rfl | rfl
        · exact Clean.str _ hk
        · exact Clean.str _ b2
      · exact Clean.str _ h1
      · exact Clean.str _ h5
  · exact Clean.str _ hm

/-- C96 for Evaio: the same with the mode first and without account number and sequence. -/
theorem C96_evaio_send (H : Hashes) (t : TxStruct) (signature pubkey keyType mode : Bytes) (hu : TxUtf8 t) (hk : IsUtf8 keyType) (hm : IsUtf8 mode) :
    (∀ sig, Hex.decode signature = .ok sig → ∃ text msgs fee acc seq sig64 pub64, createJsonForSendEvaio t signature pubkey keyType mode = .ok text ∧
      IsJson (createEmptyTransactionAndHash H t).1 (.obj [(asc "account_number", .str acc), (asc "chain_id", .str t.chainID), (asc "fee", fee),
        (asc "memo", .str t.memo), (asc "msgs", msgs), (asc "sequence", .str seq)]) ∧
      IsBase64 sig64 sig ∧ IsBase64 pub64 pubkey ∧
      IsJson text (.obj [(asc "mode", .str mode), (asc "tx", .obj [(asc "msg", msgs), (asc "fee", fee), (asc "memo", .str t.memo), (asc "signatures", .arr [
          .obj [(asc "signature", .str sig64), (asc "pub_key", .obj [(asc "type", .str keyType), (asc "value", .str pub64)])]])])])) ∧
    (Hex.decode signature = .err → createJsonForSendEvaio t signature pubkey keyType mode = .err) := by
  refine ⟨?_, fun h => by unfold createJsonForSendEvaio; rw [h]; rfl⟩
  intro sig hsig
  obtain ⟨h1, h2, h3, h4, h5, h6⟩ := id hu
  refine ⟨_, _, _, _, _, _, _, by unfold createJsonForSendEvaio; rw [hsig, Res.bind_ok]; rfl, marshal_json (clean_tx hu), Base64.encode_spec _, Base64.encode_spec _,
    marshal_json ?_⟩
  have b1 : IsUtf8 (Base64.encode sig) := ascii_utf8 (Base64.encode_ascii _)
  have b2 : IsUtf8 (Base64.encode pubkey) := ascii_utf8 (Base64.encode_ascii _)
  refine Clean.obj _ ?_ ?_ <;> intro m hm' <;> simp only [List.mem_cons, List.not_mem_nil, or_false] at hm'
  · rcases hm' with rfl | rfl <;> exact asc_utf8 _ (by decide)
  rcases hm' with rfl | rfl
  · exact Clean.str _ hm
  · refine Clean.obj _ ?_ ?_ <;> intro m hm' <;> simp only [List.mem_cons, List.not_mem_nil, or_false] at hm'
    · rcases hm' with rfl | rfl | rfl | rfl <;> exact asc_utf8 _ (by decide)
    rcases hm' with rfl | rfl | rfl | rfl
    · exact clean_slice fun m hm => clean_message (h6 m hm)
    · exact clean_fee h3
    · exact Clean.str _ h4
    · refine Clean.arr _ ?_
      intro v hv
      simp only [List.mem_cons, List.not_mem_nil, or_false] at hv
      subst hv
      refine Clean.obj _ ?_ ?_ <;> intro m hm' <;> simp only [List.mem_cons, List.not_mem_nil, or_false] at hm'
      · rcases hm' with rfl | rfl <;> exact asc_utf8 _ (by decide)
      rcases hm' with rfl | rfl
      · exact Clean.str _ b1
      · refine Clean.obj _ ?_ ?_ <;> intro m hm' <;> simp only [List.mem_cons, List.not_mem_nil, or_false] at hm'
        · rcases hm' with rfl | rfl <;> exact asc_utf8 _ (by decide)
        rcases hm' with rfl | rfl
        · exact Clean.str _ hk
        · exact Clean.str _ b2

/-- A signature text meeting the hypothesis, and the JSON it leads to. -/
example : createJsonForSend ⟨asc "1", asc "c", ⟨some [], asc "9"⟩, asc "m", some [], asc "0"⟩ (asc "00ff10ab") [1, 2, 3] (asc "k") (asc "sync") =
    .ok (asc "{\"tx\":{\"msg\":[],\"fee\":{\"amount\":[],\"gas\":\"9\"},\"memo\":\"m\",\"signatures\":[{\"signature\":\"AP8Qqw==\",\"pub_key\":{\"type\":\"k\",\"value\":\"AQID\"},\"account_number\":\"1\",\"sequence\":\"0\"}]},\"mode\":\"sync\"}") := by
  decide +kernel

/-! ### C97: signing and verifying -/

/-- C97, restricted: signing the returned hash gives a signature accepted for the returned text, for every signature scheme whose signatures are
accepted under the key, also with s replaced by n - s, when the library succeeds and n - s has at most one leading zero byte. The signature has
the lower s. Missing: the other signatures (`C97_width_violated`) and failures of the library (`C97_failure_panics_violated`). -/
theorem C97_sign_verify_partial (H : Hashes) (sign : Bytes → Bytes → Bytes × Bool) (verify : Bytes → Bytes → Bytes → Bool) (key pub sig : Bytes) (tx : TxStruct)
    (hk : key.length = 32) (hs : sign key (H.hash .sha256 (createEmptyTransactionAndHash H tx).1) = (sig, true)) (hl : sig.length = 64)
    (ho : beNat (sig.drop 32) < Btc.curveOrder) (h240 : 2 ^ 240 ≤ Btc.curveOrder - beNat (sig.drop 32))
    (hv : verify pub (H.hash .sha256 (createEmptyTransactionAndHash H tx).1) sig = true)
    (hneg : ∀ s', s'.length = 64 → s'.take 32 = sig.take 32 → beNat (s'.drop 32) = Btc.curveOrder - beNat (sig.drop 32) →
      verify pub (H.hash .sha256 (createEmptyTransactionAndHash H tx).1) s' = true) :
    ∃ out outText, signTransactionHash sign (createEmptyTransactionAndHash H tx).2 key = .ok outText ∧ Hex.decode outText = .ok out ∧
      out.length = 64 ∧ out.take 32 = sig.take 32 ∧ beNat (out.drop 32) = min (beNat (sig.drop 32)) (Btc.curveOrder - beNat (sig.drop 32)) ∧
      verifyTransactionSig H verify (createEmptyTransactionAndHash H tx).1 outText pub = true := by
  obtain ⟨p1, p2, p3⟩ := C26_low_s_partial sig hl ho
  refine ⟨Btc.serilizeS sig, Hex.encode (Btc.serilizeS sig), ?_, Hex.decode_encode _, p3 h240, p1, p2, ?_⟩
  · unfold signTransactionHash
    have e : (createEmptyTransactionAndHash H tx).2 = Hex.encode (H.hash .sha256 (createEmptyTransactionAndHash H tx).1) := rfl
    rw [e, Hex.decode_encode, Res.bind_ok, if_neg (by rw [H.size, hk]; simp [Alg.size]), hs]
    simp only
    rw [if_neg (by omega), if_pos trivial]
  · unfold verifyTransactionSig
    rw [Hex.decode_encode]
    simp only
    by_cases hle : beNat (sig.drop 32) ≤ Btc.curveOrder - beNat (sig.drop 32)
    · have : Btc.serilizeS sig = sig := by
        unfold Btc.serilizeS
        have hn : Btc.curveOrder = 2 * Btc.halfOrder + 1 := by decide
        simp only
        generalize beNat (sig.drop 32) = v at *
        rw [if_neg (by rw [hn] at hle; omega)]
      rw [this]; exact hv
    · exact hneg _ (p3 h240) p1 (by rw [p2]; omega)

/-- Key, signature and scheme meeting the hypotheses. -/
example : (List.replicate 32 (1 : UInt8)).length = 32 ∧ (List.replicate 64 (0x90 : UInt8)).length = 64 ∧
    beNat ((List.replicate 64 (0x90 : UInt8)).drop 32) < Btc.curveOrder ∧ 2 ^ 240 ≤ Btc.curveOrder - beNat ((List.replicate 64 (0x90 : UInt8)).drop 32) := by
  decide +kernel

/-- Where C97 fails (1): when n - s has two or more leading zero bytes the signature has fewer than 64 bytes. -/
theorem C97_width_violated (H : Hashes) (sign : Bytes → Bytes → Bytes × Bool) (key sig : Bytes) (tx : TxStruct)
    (hk : key.length = 32) (hs : sign key (H.hash .sha256 (createEmptyTransactionAndHash H tx).1) = (sig, true)) (hl : sig.length = 64)
    (ho : beNat (sig.drop 32) < Btc.curveOrder) (h240 : Btc.curveOrder - beNat (sig.drop 32) < 2 ^ 240) :
    ∃ out outText, signTransactionHash sign (createEmptyTransactionAndHash H tx).2 key = .ok outText ∧ Hex.decode outText = .ok out ∧ out.length < 64 := by
  refine ⟨Btc.serilizeS sig, Hex.encode (Btc.serilizeS sig), ?_, Hex.decode_encode _, C26_width_violated sig hl ho h240⟩
  unfold signTransactionHash
  have e : (createEmptyTransactionAndHash H tx).2 = Hex.encode (H.hash .sha256 (createEmptyTransactionAndHash H tx).1) := rfl
  rw [e, Hex.decode_encode, Res.bind_ok, if_neg (by rw [H.size, hk]; simp [Alg.size]), hs]
  simp only
  rw [if_neg (by omega), if_pos trivial]

/-- Where C97 fails (2): when the library refuses to sign and returns no signature, the program panics instead of returning the error. -/
theorem C97_failure_panics_violated (sign : Bytes → Bytes → Bytes × Bool) (key hash : Bytes) (hk : key.length = 32) (hh : hash.length = 32)
    (hs : sign key hash = ([], false)) : signTransactionHash sign (Hex.encode hash) key = .panic := by
  unfold signTransactionHash
  rw [Hex.decode_encode, Res.bind_ok, if_neg (by rw [hk, hh]; simp), hs]
  rfl

/-- Wrong hash texts and keys are refused, and acceptance means acceptance by the library of the decoded signature under the text's SHA-256. -/
theorem C97_refusals (sign : Bytes → Bytes → Bytes × Bool) (H : Hashes) (verify : Bytes → Bytes → Bytes → Bool) (hashText key text signature pub : Bytes) :
    ((∀ h, Hex.decode hashText = .ok h → h.length ≠ 32 ∨ key.length ≠ 32) → signTransactionHash sign hashText key = .err) ∧
    (verifyTransactionSig H verify text signature pub = true ↔
      ∃ sig, Hex.decode signature = .ok sig ∧ verify pub (H.hash .sha256 text) sig = true) := by
  constructor
  · intro h
    unfold signTransactionHash
    cases hd : Hex.decode hashText with
    | ok b => rw [Res.bind_ok, if_pos (h b hd)]
    | err => rfl
    | panic => exact absurd hd (Hex.decode_ne_panic _)
  · unfold verifyTransactionSig
    cases hd : Hex.decode signature with
    | ok b => simp
    | err => simp
    | panic => simp

example : ∀ h, Hex.decode (asc "00ff") = .ok h → h.length ≠ 32 := by
  intro h hh
  have : Hex.decode (asc "00ff") = .ok [0x00, 0xff] := by decide
  rw [this] at hh
  cases hh; decide

/-! ### C98: Bech32 addresses -/

/-- C98, restricted: for every human-readable part of lower-case letters and every non-empty payload whose length is a multiple of five (the
20-byte account hashes among them), `Bech32Decode` of `Bech32Encode` returns the payload. Missing: other lengths, see the
violations. -/
theorem C98_bech32_roundtrip_partial (hrp payload : Bytes) (hh : Bech32.IsHrp hrp) (hne : payload ≠ []) (hp : payload.length % 5 = 0) :
    ∃ addr, bech32Encode hrp Bech32.stdAlphabet payload = .ok addr ∧ bech32Decode addr = .ok payload := by
  obtain ⟨addr, h1, h2⟩ := Bech32.encode_parse hrp payload [] hh (by simp)
  refine ⟨addr, h1, ?_⟩
  unfold bech32Decode
  rw [h2]
  simp only [List.map_nil, List.nil_append]
  have hl := Bech32.extendPayload_length payload
  have hpos : 0 < payload.length := List.length_pos_iff.mpr hne
  rw [Bech32.unextendPayload_val _ (by omega) (Bech32.extendPayload_lt _), Bech32.extendPayload_val _ hne, hl,
    show 5 * ((payload.length * 8 + 4) / 5) - 8 * payload.length = 0 by omega,
    show (payload.length * 8 + 4) / 5 * 5 / 8 = payload.length by omega, pow_zero, Nat.mul_one, beBytes_beNat, Res.bind_ok, if_neg (by omega)]

example : bech32Encode (asc "cosmos") Bech32.stdAlphabet (List.replicate 20 7) = .ok (asc "cosmos1qurswpc8qurswpc8qurswpc8qurswpc8nn86qp") ∧
    bech32Decode (asc "cosmos1qurswpc8qurswpc8qurswpc8qurswpc8nn86qp") = .ok (List.replicate 20 7) := by decide +kernel

/-- Where C98 fails (1): every payload of another length whose last bit is set comes back changed (the padding bits are read as part of the
payload); a payload of 33 bytes, such as a public key, comes back with 32. -/
theorem C98_length_violated (hrp payload : Bytes) (hh : Bech32.IsHrp hrp) (hp : payload.length % 5 ≠ 0) (hodd : beNat payload % 2 = 1) :
    ∃ addr, bech32Encode hrp Bech32.stdAlphabet payload = .ok addr ∧ bech32Decode addr ≠ .ok payload := by
  obtain ⟨addr, h1, h2⟩ := Bech32.encode_parse hrp payload [] hh (by simp)
  refine ⟨addr, h1, ?_⟩
  unfold bech32Decode
  rw [h2]
  simp only [List.map_nil, List.nil_append]
  have hne : payload ≠ [] := by rintro rfl; simp at hp
  have hl := Bech32.extendPayload_length payload
  have hpos : 0 < payload.length := List.length_pos_iff.mpr hne
  rw [Bech32.unextendPayload_val _ (by omega) (Bech32.extendPayload_lt _), Bech32.extendPayload_val _ hne, hl,
    show (payload.length * 8 + 4) / 5 * 5 / 8 = payload.length by omega, Res.bind_ok]
  obtain ⟨k, hk⟩ : ∃ k, 5 * ((payload.length * 8 + 4) / 5) - 8 * payload.length = k + 1 := ⟨5 * ((payload.length * 8 + 4) / 5) - 8 * payload.length - 1, by omega⟩
  rw [hk]
  split
  · rename_i h33
    rw [beBytes_length] at h33
    intro he
    have hs : slice (Hex.encode (beBytes payload.length (beNat payload * 2 ^ (k + 1)))) 1 65
        = .ok (((Hex.encode (beBytes payload.length (beNat payload * 2 ^ (k + 1)))).take (2 * 32 + 1)).drop 1) :=
      slice_ok (by omega) (by simp [h33])
    rw [hs, Res.bind_ok, Bech32.hex_nibble_shift _ 32 (by simp [h33])] at he
    simp only [Res.ok.injEq] at he
    have := congrArg List.length he
    rw [beBytes_length, h33] at this
    omega
  · intro he
    simp only [Res.ok.injEq] at he
    have := congrArg beNat he
    rw [beNat_beBytes] at this
    have h256 : (256 : Nat) ^ payload.length = 2 * (128 * 256 ^ (payload.length - 1)) := by
      obtain ⟨n, hn⟩ : ∃ n, payload.length = n + 1 := ⟨payload.length - 1, by omega⟩
      rw [hn, pow_succ]; simp only [Nat.add_sub_cancel]; ring
    have h2' : beNat payload * 2 ^ (k + 1) = 2 * (beNat payload * 2 ^ k) := by rw [pow_succ]; ring
    rw [h256, h2', Nat.mul_mod_mul_left] at this
    omega

/-- A public key meeting the hypotheses. -/
example : (0x02 :: List.replicate 32 (7 : UInt8)).length % 5 ≠ 0 ∧ beNat (0x02 :: List.replicate 32 (7 : UInt8)) % 2 = 1 := by decide +kernel

/-- Where C98 fails (2): the text of an empty payload makes the decoder panic. -/
theorem C98_empty_violated (hrp : Bytes) (hh : Bech32.IsHrp hrp) :
    ∃ addr, bech32Encode hrp Bech32.stdAlphabet [] = .ok addr ∧ bech32Decode addr = .panic := by
  obtain ⟨addr, h1, h2⟩ := Bech32.encode_parse hrp [] [] hh (by simp)
  refine ⟨addr, h1, ?_⟩
  unfold bech32Decode
  rw [h2]
  rfl

end Verif
