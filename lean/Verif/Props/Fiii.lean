import Verif.Lemmas.Fiii

/-! C99–C101: FiiiCoin transactions. -/

namespace Verif
open Verif.Spec Verif.Spec.Fiii Verif.Json
open Verif.Fiii

/-! ### C99: creating -/

theorem Fiii.reqTx_ascii {H : Hashes} {now : Int} {ins : List Vin} {outs : List Vout} {ver lt ex : Int} {t : Tx} (h : ReqTx H now ins outs ver lt ex t) :
    TxAscii t := by
  obtain ⟨h1, h2, _, _, _, _, h3, _⟩ := h
  refine ⟨by rw [h3]; simp [Ascii], ?_, ?_⟩
  · intro i hi
    have : ∀ {vs : List Vin} {is : List In}, List.Forall₂ InOf vs is → ∀ i ∈ is, Ascii i.txidText ∧ Ascii i.unlock := by
      intro vs is hf
      induction hf with
      | nil => simp
      | cons h _ ih =>
        intro i hi
        rcases List.mem_cons.mp hi with rfl | hi
        · obtain ⟨a, _, b, _, c⟩ := h
          rw [a, c]
          exact ⟨hex_ascii b, by simp [Ascii]⟩
        · exact ih i hi
    exact this h1 i hi
  · intro o ho
    have : ∀ {vs : List Vout} {os : List Out}, List.Forall₂ (OutOf H) vs os → ∀ o ∈ os, Ascii o.lock := by
      intro vs os hf
      induction hf with
      | nil => simp
      | cons h _ ih =>
        intro o ho
        rcases List.mem_cons.mp ho with rfl | ho
        · obtain ⟨k, _, _, _, rfl⟩ := h
          exact lock_ascii k
        · exact ih o ho
    exact this h2 o ho

theorem Fiii.forall₂_left {α β : Type} {R : α → β → Prop} {l : List α} {m : List β} (h : List.Forall₂ R l m) : ∀ x ∈ l, ∃ y, R x y := by
  induction h with
  | nil => simp
  | cons h _ ih =>
    intro x hx
    rcases List.mem_cons.mp hx with rfl | hx
    · exact ⟨_, h⟩
    · exact ih x hx

/-- The text for an input of the request decodes to the bytes to be signed. -/
theorem Fiii.messages_ok : ∀ {vs : List Vin} {is : List In}, List.Forall₂ InOf vs is →
    List.Forall₂ (fun i m => Hex.decode m = .ok (message i.txid i.index)) is (vs.map genMessage)
  | _, _, .nil => .nil
  | _, _, .cons h t => by
    obtain ⟨_, _, b, c, _⟩ := h
    refine .cons ?_ (messages_ok t)
    unfold genMessage message
    rw [Fiii.hex_append b, c]
    rfl

/-- Which requests succeed, and the transaction text and the texts to be signed of those that do. -/
theorem C99_create_partial (H : Hashes) (now : Int) (ins : List Vin) (outs : List Vout) (version lt ex : Int) :
    ((∃ r, createEmpty H now ins outs version lt ex = .ok r) ↔ ins ≠ [] ∧ outs ≠ [] ∧
      (∀ v ∈ ins, v.txid.length = 64 ∧ ∃ b, Hex.decode v.txid = .ok b) ∧
      (∀ v ∈ outs, 0 < v.amount ∧ ∃ h, h.length = 20 ∧ IsBase58Check H Btc.alphabet v.addressPrefix h v.address)) ∧
    (∀ text msgs, createEmpty H now ins outs version lt ex = .ok (text, msgs) →
      ∃ t j, IsJson text j ∧ IsTx t j ∧
        t.version = version ∧ t.timestamp = now ∧ t.locktime = lt ∧ t.expired = ex ∧ t.hash = [] ∧ t.size = 0 ∧
        List.Forall₂ (fun v i => i.txidText = v.txid ∧ Hex.decode v.txid = .ok i.txid ∧ i.index = v.vout ∧ i.unlock = []) ins t.ins ∧
        List.Forall₂ (fun v o => o.amount = v.amount ∧ ∃ h, h.length = 20 ∧ IsBase58Check H Btc.alphabet v.addressPrefix h v.address ∧ o.lock = lockText h)
          outs t.outs ∧
        List.Forall₂ (fun i m => Hex.decode m = .ok (message i.txid i.index)) t.ins msgs) := by
  constructor
  · constructor
    · rintro ⟨r, hr⟩
      obtain ⟨h1, h2, t, ⟨h3, h4, _⟩, _⟩ := (createEmpty_iff _ _ _ _ _ _ _ _).mp hr
      refine ⟨h1, h2, ?_, ?_⟩
      · intro v hv
        obtain ⟨i, _, b, c, _⟩ := Fiii.forall₂_left h3 v hv
        have := Hex.decode_length _ _ c
        exact ⟨by omega, _, c⟩
      · intro v hv
        obtain ⟨o, k, h5, h6, h7, _⟩ := Fiii.forall₂_left h4 v hv
        exact ⟨h7, k, h5, h6⟩
    · rintro ⟨h1, h2, h3, h4⟩
      have e1 : ∃ is, List.Forall₂ InOf ins is := by
        clear h1
        induction ins with
        | nil => exact ⟨[], .nil⟩
        | cons v vs ih =>
          obtain ⟨⟨a, b, hb⟩, h⟩ := List.forall_mem_cons.mp h3
          obtain ⟨is, his⟩ := ih h
          have := Hex.decode_length _ _ hb
          exact ⟨⟨v.txid, b, v.vout, []⟩ :: is, .cons ⟨rfl, (by show b.length = 32; omega), hb, rfl, rfl⟩ his⟩
      have e2 : ∃ os, List.Forall₂ (OutOf H) outs os := by
        clear h2
        induction outs with
        | nil => exact ⟨[], .nil⟩
        | cons v vs ih =>
          obtain ⟨⟨a, k, hk, hb⟩, h⟩ := List.forall_mem_cons.mp h4
          obtain ⟨os, hos⟩ := ih h
          exact ⟨⟨v.amount, lockText k⟩ :: os, .cons ⟨k, hk, hb, a, rfl⟩ hos⟩
      obtain ⟨is, his⟩ := e1
      obtain ⟨os, hos⟩ := e2
      exact ⟨_, (createEmpty_iff H now ins outs version lt ex _).mpr ⟨h1, h2, ⟨version, [], now, lt, ex, is, os, 0⟩,
        ⟨his, hos, rfl, rfl, rfl, rfl, rfl, rfl⟩, rfl⟩⟩
  · intro text msgs h
    obtain ⟨h1, h2, t, ht, he⟩ := (createEmpty_iff _ _ _ _ _ _ _ _).mp h
    cases he
    have ha := Fiii.reqTx_ascii ht
    obtain ⟨h3, h4, h5, h6, h7, h8, h9, h10⟩ := ht
    refine ⟨t, txJson (mTx t), marshal_json (clean_tx ha), txJson_is t, h5, h6, h7, h8, h9, h10, ?_, ?_, Fiii.messages_ok h3⟩
    · exact h3.imp fun _ _ ⟨a, _, b, c, d⟩ => ⟨a, b, c, d⟩
    · refine h4.imp fun v o ⟨k, a, b, _, c⟩ => ?_
      subst c
      exact ⟨rfl, k, a, b, rfl⟩

/-- A request with two inputs and an output that succeeds, for every hash function. -/
theorem Fiii.example_request (H : Hashes) (pre : Bytes) : ∃ a : Bytes, ∀ now amount : Int, 0 < amount → ∃ r,
    createEmpty H now [⟨List.replicate 64 0x61, 0⟩, ⟨List.replicate 64 0x30, 7⟩] [⟨pre, a, amount⟩] 1 0 0 = .ok r := by
  obtain ⟨a, h1, _, _⟩ := C01_base58_roundtrip _ Btc.alphabet_ok (pre ++ List.replicate 20 9 ++ (H.hash .doubleSha256 (pre ++ List.replicate 20 9)).take 4)
  refine ⟨a, fun now amount ha => (C99_create_partial H now _ _ 1 0 0).1.mpr ⟨by simp, by simp, ?_, ?_⟩⟩
  · intro v hv
    simp only [List.mem_cons, List.not_mem_nil, or_false] at hv
    rcases hv with rfl | rfl
    · exact ⟨by decide, List.replicate 32 0xaa, by decide⟩
    · exact ⟨by decide, List.replicate 32 0, by decide⟩
  · intro v hv
    simp only [List.mem_cons, List.not_mem_nil, or_false] at hv
    subst hv
    exact ⟨ha, List.replicate 20 9, by decide, (Addr.encode_iff Btc.alphabet_ok _ _).mp h1⟩

/-- The transaction text of a small request. -/
example : marshal (txJson (mTx ⟨1, [], 5, 0, 0, [⟨asc "aa", [0xaa], 7, []⟩], [⟨9, asc "OP"⟩], 0⟩)) =
    asc "{\"Version\":1,\"Hash\":\"\",\"Timestamp\":5,\"Locktime\":0,\"ExpiredTime\":0,\"InputCount\":1,\"OutputCount\":1,\"Inputs\":[{\"OutputTransactionHash\":\"aa\",\"OutputIndex\":7,\"Size\":0,\"UnlockScript\":\"\"}],\"Outputs\":[{\"Index\":0,\"Amount\":9,\"Size\":2,\"LockScript\":\"OP\"}],\"Size\":0}" := by
  decide +kernel

/-- An output whose address is a Base58 text of less than four bytes stops the program, whatever the rest. -/
theorem C99_short_address_violated (H : Hashes) (now : Int) (ins : List Vin) (v : Vout) (outs : List Vout) (version lt ex : Int) (hi : ins ≠ [])
    (h1 : ∀ v ∈ ins, v.txid.length = 64 ∧ ∃ b, Hex.decode v.txid = .ok b) (b : Bytes) (hb : Base58.decode Btc.alphabet v.address = .ok b) (hl : b.length < 4) :
    createEmpty H now ins (v :: outs) version lt ex = .panic := by
  have e1 : ∃ is, List.Forall₂ InOf ins is := by
    clear hi
    induction ins with
    | nil => exact ⟨[], .nil⟩
    | cons v vs ih =>
      obtain ⟨⟨a, b, hb⟩, h⟩ := List.forall_mem_cons.mp h1
      obtain ⟨is, his⟩ := ih h
      have := Hex.decode_length _ _ hb
      exact ⟨⟨v.txid, b, v.vout, []⟩ :: is, .cons ⟨rfl, (by show b.length = 32; omega), hb, rfl, rfl⟩ his⟩
  obtain ⟨is, his⟩ := e1
  unfold createEmpty
  rw [if_neg hi, if_neg (by simp), (newInputs_iff _ _).mpr ⟨is, his, rfl⟩, Res.bind_ok]
  unfold newOutputs newOutputMsg decodeCheck
  rw [hb, Res.bind_ok, if_pos hl]
  rfl

example : ∃ b, Base58.decode Btc.alphabet (asc "11") = .ok b ∧ b.length < 4 := ⟨[0, 0], by decide, by decide⟩

/-- An address with a valid checksum and a prefix that continues it stop the program. -/
theorem C99_long_prefix_violated (H : Hashes) (now : Int) (ins : List Vin) (v : Vout) (outs : List Vout) (version lt ex : Int) (hi : ins ≠ [])
    (h1 : ∀ v ∈ ins, v.txid.length = 64 ∧ ∃ b, Hex.decode v.txid = .ok b) (b : Bytes)
    (hb : Base58.decode Btc.alphabet v.address = .ok (b ++ (H.hash .doubleSha256 b).take 4)) (x : UInt8) (y : Bytes)
    (hp : v.addressPrefix = b ++ (H.hash .doubleSha256 b).take 4 ++ x :: y) :
    createEmpty H now ins (v :: outs) version lt ex = .panic := by
  have e1 : ∃ is, List.Forall₂ InOf ins is := by
    clear hi
    induction ins with
    | nil => exact ⟨[], .nil⟩
    | cons v vs ih =>
      obtain ⟨⟨a, b, hb⟩, h⟩ := List.forall_mem_cons.mp h1
      obtain ⟨is, his⟩ := ih h
      have := Hex.decode_length _ _ hb
      exact ⟨⟨v.txid, b, v.vout, []⟩ :: is, .cons ⟨rfl, (by show b.length = 32; omega), hb, rfl, rfl⟩ his⟩
  obtain ⟨is, his⟩ := e1
  have hloop : ∀ r : Bytes, prefixLoop (r ++ x :: y) r = .panic := by
    intro r
    induction r with
    | nil => rfl
    | cons c r ih => rw [List.cons_append, prefixLoop, if_neg (by simp), ih]
  unfold createEmpty
  rw [if_neg hi, if_neg (by simp), (newInputs_iff _ _).mpr ⟨is, his, rfl⟩, Res.bind_ok]
  unfold newOutputs newOutputMsg decodeCheck
  have hck : ((H.hash .doubleSha256 b).take 4).length = 4 := by rw [List.length_take, H.size]; rfl
  rw [hb, Res.bind_ok, hp]
  generalize hck' : (H.hash .doubleSha256 b).take 4 = ck at *
  have t4 : (b ++ ck).length - 4 = b.length := by simp; omega
  rw [t4, List.take_left, List.drop_left, if_neg (by simp; omega), if_neg (not_not.mpr hck'), hloop]
  rfl

/-! ### C100: combining -/

/-- The numbers of a request that Go's types hold. -/
def Fiii.ReqFits (now : Int) (ins : List Vin) (outs : List Vout) (version lt ex : Int) : Prop :=
  Fits64 version ∧ Fits64 now ∧ Fits64 lt ∧ Fits64 ex ∧ Fits64 ins.length ∧ Fits64 outs.length ∧ (∀ v ∈ ins, Fits64 v.vout) ∧ ∀ v ∈ outs, Fits64 v.amount

theorem Fiii.reqTx_fits {H : Hashes} {now : Int} {ins : List Vin} {outs : List Vout} {ver lt ex : Int} {t : Tx} (h : ReqTx H now ins outs ver lt ex t)
    (hf : ReqFits now ins outs ver lt ex) : TxFits (mTx t) := by
  obtain ⟨h1, h2, rfl, rfl, rfl, rfl, h3, h4⟩ := h
  obtain ⟨f1, f2, f3, f4, f5, f6, f7, f8⟩ := hf
  refine ⟨f1, f2, f3, f4, ?_, ?_, ?_, ?_, ?_⟩
  · show Fits64 (t.ins.length : Int); rw [← h1.length_eq]; exact f5
  · show Fits64 (t.outs.length : Int); rw [← h2.length_eq]; exact f6
  · show Fits64 t.size; rw [h4]; exact ⟨by decide, by decide⟩
  · intro x hx
    obtain ⟨i, hi, rfl⟩ := List.mem_map.mp hx
    obtain ⟨k, hk, rfl⟩ := List.mem_iff_getElem.mp hi
    obtain ⟨hl, hg⟩ := List.forall₂_iff_get.mp h1
    obtain ⟨_, _, _, h5, h6⟩ := hg k (hl ▸ hk) hk
    refine ⟨?_, ?_⟩
    · show Fits64 (t.ins[k]).index
      simp only [List.get_eq_getElem] at h5
      rw [h5]
      exact f7 _ (List.getElem_mem _)
    · show Fits64 ((t.ins[k]).unlock.length : Int)
      simp only [List.get_eq_getElem] at h6
      rw [h6]
      exact ⟨by decide, by decide⟩
  · intro x hx
    obtain ⟨⟨o, n⟩, ho, rfl⟩ := List.mem_map.mp hx
    obtain ⟨k, hk, he⟩ := List.mem_iff_getElem.mp ho
    rw [List.getElem_zipIdx] at he
    rw [List.length_zipIdx] at hk
    obtain ⟨e1, e2⟩ := Prod.mk.inj he
    obtain ⟨hl, hg⟩ := List.forall₂_iff_get.mp h2
    obtain ⟨a, h5, _, _, h6⟩ := hg k (hl ▸ hk) hk
    simp only [List.get_eq_getElem] at h6
    rw [e1] at h6
    subst h6
    refine ⟨?_, ?_, ?_⟩
    · show Fits64 (n : Int)
      obtain ⟨_, b2⟩ := f6
      exact ⟨by omega, by omega⟩
    · exact f8 _ (List.getElem_mem _)
    · show Fits64 ((lockText a).length : Int)
      have : (lockText a).length = 85 := by
        unfold lockText
        rw [List.length_append, List.length_append, hexUpper_length, h5]
        decide
      rw [this]
      exact ⟨by decide, by decide⟩

/-- An input with its signature. -/
def Fiii.sealIn (p : In × SigPub) : In := { p.1 with unlock := unlockText p.2.signature p.2.pubkey }

/-- A transaction with its signatures. -/
def Fiii.sealTx (t : Tx) (sps : List SigPub) : Tx := { t with ins := (t.ins.zip sps).map sealIn }

theorem Fiii.combine_iff (fold : Bytes → Bytes → Bool) (H : Hashes) (verify : Bytes → Bytes → Bytes → Bool) {now : Int} {ins : List Vin} {outs : List Vout}
    {version lt ex : Int} {t : Tx} (hne : ins ≠ []) (h : ReqTx H now ins outs version lt ex t) (hf : ReqFits now ins outs version lt ex) (sps : List SigPub) (out : Bytes) :
    verifyAndCombine fold H verify (marshal (txJson (mTx t))) sps = .ok out ↔ List.Forall₂ (Signed verify) t.ins sps ∧
      ∃ t', t' = sealTx t sps ∧
      out = marshal (txJson (mTx { t' with hash := hexUpper (H.hash .sha256 (body t')), size := (body t').length + 36 })) := by
  have hdec : ∀ i ∈ t.ins, Hex.decode i.txidText = .ok i.txid := by
    intro i hi
    obtain ⟨k, hk, rfl⟩ := List.mem_iff_getElem.mp hi
    obtain ⟨hl, hg⟩ := List.forall₂_iff_get.mp h.1
    obtain ⟨h1, _, h2, _⟩ := hg k (hl ▸ hk) hk
    simp only [List.get_eq_getElem] at h1 h2
    rw [h1, h2]
  unfold verifyAndCombine
  rw [unmarshal_ok fold (Fiii.reqTx_ascii h) (Fiii.reqTx_fits h hf)]
  simp only
  have hi : (mTx t).inputs.getD [] = t.ins.map mIn := rfl
  have hpos : 0 < t.ins.length := by rw [← h.1.length_eq]; exact List.length_pos_of_ne_nil hne
  rw [hi, List.length_map]
  by_cases hl : sps.length = t.ins.length
  · rw [if_neg (by omega)]
    have hcomp : complete H { mTx t with inputs := some ((t.ins.zip sps).map fun p => mIn (sealIn p)) } =
        mTx { sealTx t sps with hash := hexUpper (H.hash .sha256 (body (sealTx t sps))), size := (body (sealTx t sps)).length + 36 } := by
      have := body_eq (sealTx t sps) (by
        intro i hi
        obtain ⟨⟨i, sp⟩, hp, rfl⟩ := List.mem_map.mp hi
        exact hdec i (List.of_mem_zip hp).1) H
      rw [← this]
      congr 1
      unfold mTx sealTx
      simp only [List.map_map, List.length_map, List.length_zip, hl, Nat.min_self]
      rfl
    constructor
    · intro hh
      obtain ⟨xs, hx, hh⟩ := Res.bind_eq_ok.mp hh
      obtain ⟨h1, rfl⟩ := (unlockLoop_iff verify _ _ _ hl.symm hdec).mp hx
      cases hh
      exact ⟨h1, _, rfl, by rw [← hcomp]; rfl⟩
    · rintro ⟨h1, _, rfl, rfl⟩
      rw [(unlockLoop_iff verify _ _ _ hl.symm hdec).mpr ⟨h1, rfl⟩, Res.bind_ok, ← hcomp]
      rfl
  · rw [if_pos (Or.inr hl)]
    constructor
    · intro hh; cases hh
    · rintro ⟨h1, _⟩
      exact absurd h1.length_eq.symm hl

/-- For the text and messages of a created transaction: it combines exactly with one 64-byte signature and 32-byte key per message, in order, each of which
verifies for that message; the result is the same transaction with these signatures, its hash and its size filled in. -/
theorem C100_combine (fold : Bytes → Bytes → Bool) (H : Hashes) (verify : Bytes → Bytes → Bytes → Bool) (now : Int) (ins : List Vin) (outs : List Vout)
    (version lt ex : Int) (hf : ReqFits now ins outs version lt ex) (text : Bytes) (msgs : List Bytes)
    (h : createEmpty H now ins outs version lt ex = .ok (text, msgs)) (sps : List SigPub) :
    ((∃ out, verifyAndCombine fold H verify text sps = .ok out) ↔ List.Forall₂ (fun m sp => sp.signature.length = 64 ∧ sp.pubkey.length = 32 ∧
      ∃ d, Hex.decode m = .ok d ∧ verify sp.pubkey d sp.signature = true) msgs sps) ∧
    ∀ out, verifyAndCombine fold H verify text sps = .ok out → ∃ t t' j j', IsJson text j ∧ IsTx t j ∧ IsJson out j' ∧ IsTx t' j' ∧
      t'.version = t.version ∧ t'.timestamp = t.timestamp ∧ t'.locktime = t.locktime ∧ t'.expired = t.expired ∧ t'.outs = t.outs ∧
      List.Forall₂ (fun v i => i.txidText = v.txid ∧ Hex.decode v.txid = .ok i.txid ∧ i.index = v.vout) ins t'.ins ∧
      List.Forall₂ (fun i sp => i.unlock = unlockText sp.signature sp.pubkey) t'.ins sps ∧
      t'.hash = hexUpper (H.hash .sha256 (body t')) ∧ t'.size = (body t').length + 36 := by
  obtain ⟨h1, h2, t, ht, he⟩ := (createEmpty_iff _ _ _ _ _ _ _ _).mp h
  cases he
  have hm := Fiii.messages_ok ht.1
  have hc := Fiii.combine_iff fold H verify h1 ht hf sps
  constructor
  · have key : List.Forall₂ (Signed verify) t.ins sps ↔ List.Forall₂ (fun m sp => sp.signature.length = 64 ∧ sp.pubkey.length = 32 ∧
        ∃ d, Hex.decode m = .ok d ∧ verify sp.pubkey d sp.signature = true) (ins.map genMessage) sps := by
      generalize ins.map genMessage = ms at hm
      generalize t.ins = is at hm
      clear hc ht h hf h1 h2
      induction hm generalizing sps with
      | nil => constructor <;> intro h <;> cases h <;> exact .nil
      | @cons i m is ms h t ih =>
        constructor
        · intro hh
          cases hh with
          | cons a b => exact .cons ⟨a.1, a.2.1, _, h, a.2.2⟩ ((ih _).mp b)
        · intro hh
          cases hh with
          | cons a b =>
            obtain ⟨a1, a2, d, a3, a4⟩ := a
            rw [h] at a3
            cases a3
            exact .cons ⟨a1, a2, a4⟩ ((ih _).mpr b)
    rw [← key]
    constructor
    · rintro ⟨out, ho⟩
      exact ((hc out).mp ho).1
    · intro hs
      exact ⟨_, (hc _).mpr ⟨hs, _, rfl, rfl⟩⟩
  · intro out ho
    obtain ⟨hs, t', rfl, rfl⟩ := (hc out).mp ho
    have ha := Fiii.reqTx_ascii ht
    have hl := hs.length_eq
    refine ⟨t, _, _, _, marshal_json (clean_tx ha), txJson_is t, marshal_json (clean_tx ?_), txJson_is _, rfl, rfl, rfl, rfl, rfl, ?_, ?_, rfl, rfl⟩
    · refine ⟨hexUpper_ascii _, ?_, ha.2.2⟩
      intro i hi
      obtain ⟨⟨i, sp⟩, hp, rfl⟩ := List.mem_map.mp hi
      exact ⟨(ha.2.1 i (List.of_mem_zip hp).1).1, unlock_ascii _ _⟩
    · have h3 := ht.1
      show List.Forall₂ _ ins ((t.ins.zip sps).map sealIn)
      generalize t.ins = is at h3 hl
      clear hc ht hf hm h h1 h2 hs ha ho
      induction h3 generalizing sps with
      | nil => exact .nil
      | @cons v i vs is a _ ih =>
        match sps, hl with
        | sp :: sps, hl => exact .cons ⟨a.1, a.2.2.1, a.2.2.2.1⟩ (ih sps (by simpa using hl))
    · show List.Forall₂ _ ((t.ins.zip sps).map sealIn) sps
      generalize t.ins = is at hl
      clear hc ht hf hm h h1 h2 hs ha ho
      induction is generalizing sps with
      | nil => match sps, hl with | [], _ => exact .nil
      | cons i is ih =>
        match sps, hl with
        | sp :: sps, hl => exact .cons rfl (ih sps (by simpa using hl))

/-- There are requests, keys and signatures to which the theorem applies, and the combined transaction exists. -/
example (fold : Bytes → Bytes → Bool) (H : Hashes) : ∃ a text msgs out,
    createEmpty H 1600000000000 [⟨List.replicate 64 0x61, 0⟩, ⟨List.replicate 64 0x30, 7⟩] [⟨[0x40, 0xd2, 0x93, 0x93], a, 500⟩] 1 0 0 = .ok (text, msgs) ∧
    verifyAndCombine fold H (fun _ _ _ => true) text [⟨List.replicate 64 1, List.replicate 32 2⟩, ⟨List.replicate 64 3, List.replicate 32 4⟩] = .ok out := by
  obtain ⟨a, ha⟩ := Fiii.example_request H [0x40, 0xd2, 0x93, 0x93]
  obtain ⟨⟨text, msgs⟩, hr⟩ := ha 1600000000000 500 (by decide)
  have hf : ReqFits 1600000000000 [⟨List.replicate 64 0x61, 0⟩, ⟨List.replicate 64 0x30, 7⟩] [⟨[0x40, 0xd2, 0x93, 0x93], a, 500⟩] 1 0 0 := by
    simp [ReqFits, Fits64]
  obtain ⟨_, _, t, ht, he⟩ := (createEmpty_iff _ _ _ _ _ _ _ _).mp hr
  have hm := (Prod.mk.inj he).2
  obtain ⟨out, ho⟩ := (C100_combine fold H (fun _ _ _ => true) _ _ _ _ _ _ hf text msgs hr
    [⟨List.replicate 64 1, List.replicate 32 2⟩, ⟨List.replicate 64 3, List.replicate 32 4⟩]).1.mpr (by
      rw [hm]
      exact .cons ⟨by simp, by simp, List.replicate 32 0xaa ++ [0, 0, 0, 0], by decide, rfl⟩
        (.cons ⟨by simp, by simp, List.replicate 32 0 ++ [0, 0, 0, 7], by decide, rfl⟩ .nil))
  exact ⟨a, text, msgs, out, hr, ho⟩

/-- Signing the messages with 32-byte keys and combining with the public keys succeeds, for every signature scheme whose signatures verify and have the
lengths of Ed25519. -/
theorem C100_sign_combine (fold : Bytes → Bytes → Bool) (H : Hashes) (verify : Bytes → Bytes → Bytes → Bool) (sign : Bytes → Bytes → Option Bytes)
    (pubOf : Bytes → Bytes) (scheme : ∀ k d s, sign k d = some s → verify (pubOf k) d s = true ∧ s.length = 64 ∧ (pubOf k).length = 32)
    (now : Int) (ins : List Vin) (outs : List Vout) (version lt ex : Int) (hf : ReqFits now ins outs version lt ex) (text : Bytes) (msgs : List Bytes)
    (h : createEmpty H now ins outs version lt ex = .ok (text, msgs)) (keys sigs : List Bytes)
    (hs : List.Forall₂ (fun m p => signMessage sign m p.1 = .ok p.2) msgs (keys.zip sigs)) :
    ∃ out, verifyAndCombine fold H verify text ((keys.zip sigs).map fun p => ⟨p.2, pubOf p.1⟩) = .ok out := by
  refine (C100_combine fold H verify now ins outs version lt ex hf text msgs h _).1.mpr ?_
  rw [List.forall₂_map_right_iff]
  refine hs.imp fun m p hp => ?_
  unfold signMessage at hp
  split at hp
  · cases hp
  split at hp
  · cases hp
  obtain ⟨d, hd, hp⟩ := Res.bind_eq_ok.mp hp
  split at hp
  · cases hp
  · rename_i s hsg
    cases hp
    obtain ⟨a, b, c⟩ := scheme _ _ _ hsg
    exact ⟨b, c, d, hd, a⟩

/-- Signing refuses the empty message, a key that is not 32 bytes and a message that is not hexadecimal; else it signs the bytes of the message. -/
theorem C100_sign (sign : Bytes → Bytes → Option Bytes) (m k s : Bytes) : signMessage sign m k = .ok s ↔
    m ≠ [] ∧ k.length = 32 ∧ ∃ d, Hex.decode m = .ok d ∧ sign k d = some s := by
  unfold signMessage
  constructor
  · intro h
    split at h
    · cases h
    rename_i h1
    split at h
    · cases h
    rename_i h2
    obtain ⟨d, hd, h⟩ := Res.bind_eq_ok.mp h
    split at h
    · cases h
    · rename_i hsg
      cases h
      exact ⟨by rintro rfl; exact h1 rfl, not_not.mp h2, d, hd, hsg⟩
  · rintro ⟨h1, h2, d, h3, h4⟩
    rw [if_neg (by simpa using h1), if_neg (by simpa using h2), h3, Res.bind_ok, h4]

theorem Fiii.unlockLoop_ne_panic (verify : Bytes → Bytes → Bytes → Bool) : ∀ (is : List InputMsg) (sps : List SigPub), unlockLoop verify is sps ≠ .panic
  | [], _ => by rw [unlockLoop]; · simp
                intro _ _ _ _ h; cases h
  | _ :: _, [] => by rw [unlockLoop]; · simp
                     intro _ _ _ _ _ h; cases h
  | i :: is, sp :: sps => by
    rw [unlockLoop]
    unfold genMessageBytes genUnlockScript
    have h1 := Hex.decode_ne_panic i.txHash
    have h2 := unlockLoop_ne_panic verify is sps
    cases hd : Hex.decode i.txHash with
    | panic => exact absurd hd h1
    | err => intro h; cases h
    | ok m =>
      simp only [Res.bind_ok]
      split
      · intro h; cases h
      split
      · intro h; cases h
      split
      · intro h; cases h
      cases hu : unlockLoop verify is sps with
      | panic => exact absurd hu h2
      | err => intro h; cases h
      | ok m => intro h; cases h

/-- Combining never panics, whatever the text and the signatures. -/
theorem C100_no_panic (fold : Bytes → Bytes → Bool) (H : Hashes) (verify : Bytes → Bytes → Bytes → Bool) (text : Bytes) (sps : List SigPub) :
    verifyAndCombine fold H verify text sps ≠ .panic := by
  unfold verifyAndCombine
  split
  · intro h; cases h
  split
  · intro h; cases h
  cases hu : unlockLoop verify _ sps with
  | panic => exact absurd hu (Fiii.unlockLoop_ne_panic verify _ sps)
  | err => intro h; cases h
  | ok m => intro h; cases h

/-- The reader of the messages allows white space (RFC 8259) before and after the text. -/
theorem C100_reader_space (t v : Bytes) (w : Bytes) (j : Json) (h : IsJson t j) (hv : ∀ c ∈ v, c ∈ asc " \t\n\r") (hw : ∀ c ∈ w, c ∈ asc " \t\n\r") :
    Json.parse (v ++ t ++ w) = some j := by
  have sp : ∀ c ∈ asc " \t\n\r", Json.isSpace c = true := by decide
  obtain ⟨c, r, hc, hs, _⟩ := Json.json_head h
  have hskip : ∀ x : Bytes, (∀ c ∈ x, c ∈ asc " \t\n\r") → ∀ y, Json.skip (x ++ y) = Json.skip y := by
    intro x hx y
    unfold Json.skip
    induction x with
    | nil => rfl
    | cons a x ih => rw [List.cons_append, List.dropWhile_cons, if_pos (sp a (hx a (by simp))), ih fun c h => hx c (by simp [h])]
  have hval : ∀ n, Json.value n (v ++ t ++ w) = Json.value n (t ++ w) := by
    intro n
    cases n with
    | zero => rw [Json.value, Json.value]
    | succ n => rw [Json.value, Json.value, List.append_assoc, hskip v hv]
  have hd : Json.Delim w := by
    cases w with
    | nil => exact .inl rfl
    | cons a w =>
      refine .inr ⟨a, w, rfl, ?_⟩
      have hs : ∀ c ∈ asc " \t\n\r", c = 0x2c ∨ c = 0x5d ∨ c = 0x7d ∨ c = 0x20 ∨ c = 0x09 ∨ c = 0x0a ∨ c = 0x0d := by decide
      exact hs a (hw a (by simp))
  unfold Json.parse
  rw [hval, Json.value_json h w hd _ (by simp only [List.length_append]; omega)]
  simp only
  have : Json.skip w = [] := by
    have := hskip w hw []
    rwa [List.append_nil] at this
  rw [if_pos this]

/-- The reader takes a number for an integer only if it fits in 64 bits with sign, and then for the integer it writes. -/
theorem C100_reader_range (t : Bytes) (n : Int) (h : IsDecimal t n) (k : Int) : Json.parseInt t = some k ↔ k = n ∧ -(2 ^ 63) ≤ n ∧ n < 2 ^ 63 := by
  constructor
  · intro hp
    suffices hr : -(2 ^ 63) ≤ n ∧ n < 2 ^ 63 by
      rw [Json.parseInt_decimal h hr.1 hr.2] at hp
      exact ⟨(Option.some.inj hp).symm, hr⟩
    rcases h with ⟨m, rfl, hd⟩ | ⟨m, ds, rfl, hk, rfl, hd⟩
    · unfold Json.parseInt at hp
      split at hp
      · rename_i ds
        exact absurd (hd.2.1 0x2d (by simp)) (by decide)
      · split at hp
        · rename_i hh
          rw [Json.decVal_eq hd.2.1, hd.2.2.2] at hh
          omega
        · cases hp
    · unfold Json.parseInt at hp
      simp only at hp
      split at hp
      · rename_i hh
        rw [Json.decVal_eq hd.2.1, hd.2.2.2] at hh
        omega
      · cases hp
  · rintro ⟨rfl, h1, h2⟩
    exact Json.parseInt_decimal h h1 h2

example : Json.parseInt (asc "-9223372036854775808") = some (-9223372036854775808) ∧ Json.parseInt (asc "-9223372036854775809") = none := by decide +kernel

/-! ### C101: what a signature covers -/

/-- Two inputs with output numbers of 32 bits have the same message only if they spend the same output. -/
theorem C101_message_partial (v w : Vin) (b c : Bytes) (hv : Hex.decode v.txid = .ok b) (hw : Hex.decode w.txid = .ok c) (lv : b.length = 32) (lw : c.length = 32)
    (rv : 0 ≤ v.vout ∧ v.vout < 2 ^ 32) (rw' : 0 ≤ w.vout ∧ w.vout < 2 ^ 32) (d : Bytes) (h1 : Hex.decode (genMessage v) = .ok d)
    (h2 : Hex.decode (genMessage w) = .ok d) : b = c ∧ v.vout = w.vout := by
  unfold genMessage at h1 h2
  rw [Fiii.hex_append hv] at h1
  rw [Fiii.hex_append hw] at h2
  have := (Res.ok.inj h1).trans (Res.ok.inj h2).symm
  obtain ⟨h3, h4⟩ := List.append_inj this (by omega)
  refine ⟨h3, ?_⟩
  have := beBytes_inj (k := 4) (by have := rv; norm_num at this ⊢; omega) (by have := rw'; norm_num at this ⊢; omega) h4
  omega

example : genMessage ⟨List.replicate 64 0x61, 1⟩ = List.replicate 64 0x61 ++ asc "00000001" := by decide

/-- The output number is signed modulo 2³². -/
theorem C101_vout_violated (v : Vin) : genMessage { v with vout := v.vout + 2 ^ 32 } = genMessage v := by
  unfold genMessage u32
  simp only [Int.add_emod_right]

/-- Nothing else is covered: the signatures for one transaction are accepted for every other one with the same inputs, whatever its outputs, version, times and
locks. -/
theorem C101_outputs_violated (fold : Bytes → Bytes → Bool) (H : Hashes) (verify : Bytes → Bytes → Bytes → Bool) (ins : List Vin) (now now' : Int)
    (outs outs' : List Vout) (ver lt ex ver' lt' ex' : Int) (hf : ReqFits now ins outs ver lt ex) (hf' : ReqFits now' ins outs' ver' lt' ex')
    (text text' : Bytes) (msgs msgs' : List Bytes) (h : createEmpty H now ins outs ver lt ex = .ok (text, msgs))
    (h' : createEmpty H now' ins outs' ver' lt' ex' = .ok (text', msgs')) (sps : List SigPub) (ok : ∃ out, verifyAndCombine fold H verify text sps = .ok out) :
    msgs' = msgs ∧ ∃ out, verifyAndCombine fold H verify text' sps = .ok out := by
  have hm : msgs' = msgs := by
    obtain ⟨_, _, t, _, he⟩ := (createEmpty_iff _ _ _ _ _ _ _ _).mp h
    obtain ⟨_, _, t', _, he'⟩ := (createEmpty_iff _ _ _ _ _ _ _ _).mp h'
    cases he; cases he'; rfl
  subst hm
  exact ⟨rfl, (C100_combine fold H verify now' ins outs' ver' lt' ex' hf' text' msgs' h' sps).1.mpr
    ((C100_combine fold H verify now ins outs ver lt ex hf text msgs' h sps).1.mp ok)⟩

end Verif
