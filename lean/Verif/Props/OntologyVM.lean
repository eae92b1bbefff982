import Verif.Props.Ontology
import Verif.Props.BtcTx

/-! C69: what an Ontology transfer does when its script is run. -/

namespace Verif
open Verif.Ontology Verif.Spec Verif.Spec.OntVM

namespace Ontology

theorem decodeCheck_iff (H : Hashes) (addr : Bytes) (p : UInt8) (h : Bytes) :
    decodeCheck H addr = .ok (p, h) ↔ IsBase58Check H Btc.alphabet [p] h addr := by
  unfold IsBase58Check
  constructor
  · intro hd
    unfold decodeCheck at hd
    split at hd
    · rename_i ret hret
      split at hd
      · cases hd
      split at hd
      · cases hd
      rename_i hck
      split at hd
      · cases hd
      rename_i p' h' he
      cases hd
      simp only [ne_eq, not_not] at hck
      rw [show [p] ++ h = ret.take (ret.length - 4) from he.symm, hck, List.take_append_drop]
      exact (Addr.encode_iff Btc.alphabet_ok _ _).mp (C02_base58_canonical _ Btc.alphabet_ok _ _ hret)
    · cases hd
    · cases hd
  · intro hb
    obtain ⟨t, h1, h2, h3⟩ := C01_base58_roundtrip _ Btc.alphabet_ok ([p] ++ h ++ (H.hash .doubleSha256 ([p] ++ h)).take 4)
    have ht : t = addr := by
      have := (Addr.encode_iff Btc.alphabet_ok _ _).mpr hb
      rw [h1] at this
      exact Res.ok.inj this
    rw [ht] at h3
    have hck : ((H.hash .doubleSha256 ([p] ++ h)).take 4).length = 4 := by
      rw [List.length_take, H.size]; rfl
    unfold decodeCheck
    rw [h3]
    simp only
    generalize hck' : (H.hash .doubleSha256 ([p] ++ h)).take 4 = ck at *
    have t4 : ([p] ++ h ++ ck).length - 4 = ([p] ++ h).length := by simp; omega
    rw [t4, List.take_left, List.drop_left, if_neg (by simp; omega), if_neg (by simp only [ne_eq, not_not]; exact hck')]
    rfl

/-- An Ontology address: Base58Check with prefix 0x17 of twenty bytes. -/
def IsAddress (H : Hashes) (text h : Bytes) : Prop := h.length = 20 ∧ IsBase58Check H Btc.alphabet [0x17] h text

theorem addressHash_iff (H : Hashes) (addr h : Bytes) : addressHash H addr = .ok h ↔ IsAddress H addr h := by
  unfold addressHash IsAddress
  constructor
  · intro hd
    obtain ⟨⟨p, h'⟩, h1, hd⟩ := Res.bind_eq_ok.mp hd
    simp only at hd
    split at hd
    · cases hd
    split at hd
    · cases hd
    rename_i hp hl
    cases hd
    simp only [ne_eq, not_not] at hp hl
    subst hp
    exact ⟨hl, (decodeCheck_iff H _ _ _).mp h1⟩
  · rintro ⟨hl, hb⟩
    rw [(decodeCheck_iff H _ _ _).mpr hb]
    simp only [Res.bind_ok]
    rw [if_neg (by simp), if_neg (by simp [hl])]

theorem ontContract_eq : ontContract = .ok ont := by decide +kernel
theorem ongContract_eq : ongContract = .ok ong := by decide +kernel

/-! Reading the script. -/

theorem read_push20 (d rest : Bytes) (h : d.length = 20) : readInstr ([0x14] ++ d ++ rest) = some (.push (.bytes d), rest) := by
  have := readInstr_push d rest (by omega)
  rw [h] at this
  exact this

theorem read_pushLen (d rest : Bytes) (h : d.length < 75) :
    readInstr ([UInt8.ofNat d.length] ++ d ++ rest) = some (.push (.bytes d), rest) := by
  have := readInstr_push d rest (by omega)
  rw [getLength, if_pos h] at this
  exact this

theorem read_service : Script ([0x00] ++ [0x68] ++ [UInt8.ofNat (asc "Ontology.Native.Invoke").length] ++ asc "Ontology.Native.Invoke")
    [.push (.bytes []), .sysCall (asc "Ontology.Native.Invoke")] :=
  .cons (r := [0x68] ++ [UInt8.ofNat (asc "Ontology.Native.Invoke").length] ++ asc "Ontology.Native.Invoke") (by decide +kernel)
    (.cons (r := []) (by decide +kernel) .nil)

/-- The end of every script: method, contract, version, service. -/
theorem read_tail (m c : Bytes) (hm : m.length < 75) (hc : c.length < 75) :
    Script ([UInt8.ofNat m.length] ++ m ++ [UInt8.ofNat c.length] ++ c ++ [0x00] ++ [0x68] ++
        [UInt8.ofNat (asc "Ontology.Native.Invoke").length] ++ asc "Ontology.Native.Invoke")
      [.push (.bytes m), .push (.bytes c), .push (.bytes []), .sysCall (asc "Ontology.Native.Invoke")] := by
  have h1 := read_pushLen m ([UInt8.ofNat c.length] ++ c ++ ([0x00] ++ [0x68] ++
        [UInt8.ofNat (asc "Ontology.Native.Invoke").length] ++ asc "Ontology.Native.Invoke")) hm
  have h2 := read_pushLen c ([0x00] ++ [0x68] ++
        [UInt8.ofNat (asc "Ontology.Native.Invoke").length] ++ asc "Ontology.Native.Invoke") hc
  simp only [List.append_assoc] at h1 h2 ⊢
  have h3 := read_service
  simp only [List.append_assoc] at h3
  exact .cons h1 (.cons h2 h3)

/-- The script of a transfer as the model builds it. -/
def transferScript (from_ to_ emit m c : Bytes) : Bytes :=
  [0x00, 0xC6, 0x6B, 0x6A] ++ [0x14] ++ from_ ++ [0xC8, 0x6A] ++ [] ++ [0x14] ++ to_ ++ [0xC8, 0x6A] ++ emit ++
    [0xC8, 0x6C] ++ (uint64ToEmitBytes 1 ++ [0xC1]) ++
    [UInt8.ofNat m.length] ++ m ++ [UInt8.ofNat c.length] ++ c ++ [0x00] ++ [0x68] ++
    [UInt8.ofNat (asc "Ontology.Native.Invoke").length] ++ asc "Ontology.Native.Invoke"

def withdrawScript (from_ src to_ emit m c : Bytes) : Bytes :=
  [0x00, 0xC6, 0x6B, 0x6A] ++ [0x14] ++ from_ ++ [0xC8, 0x6A] ++ ([0x14] ++ src ++ [0xC8, 0x6A]) ++ [0x14] ++ to_ ++ [0xC8, 0x6A] ++ emit ++
    [0xC8, 0x6C] ++ [] ++
    [UInt8.ofNat m.length] ++ m ++ [UInt8.ofNat c.length] ++ c ++ [0x00] ++ [0x68] ++
    [UInt8.ofNat (asc "Ontology.Native.Invoke").length] ++ asc "Ontology.Native.Invoke"

theorem read_transfer {from_ to_ emit m c : Bytes} {it : Item} (hf : from_.length = 20) (ht : to_.length = 20)
    (he : ∀ rest, readInstr (emit ++ rest) = some (.push it, rest)) (hm : m.length < 75) (hc : c.length < 75) :
    Script (transferScript from_ to_ emit m c)
      [.push (.bytes []), .newStruct, .toAlt, .dupFromAlt, .push (.bytes from_), .append, .dupFromAlt, .push (.bytes to_), .append,
        .dupFromAlt, .push it, .append, .fromAlt, .push (.int 1), .pack,
        .push (.bytes m), .push (.bytes c), .push (.bytes []), .sysCall (asc "Ontology.Native.Invoke")] := by
  have h1 := fun rest => read_push20 from_ rest hf
  have h2 := fun rest => read_push20 to_ rest ht
  have h3 := read_tail m c hm hc
  have e1 : uint64ToEmitBytes 1 = [0x51] := by decide +kernel
  unfold transferScript
  rw [e1]
  simp only [List.append_assoc, List.cons_append, List.nil_append] at h1 h2 h3 ⊢
  exact .cons rfl (.cons rfl (.cons rfl (.cons rfl (.cons (h1 _) (.cons rfl (.cons rfl (.cons (h2 _) (.cons rfl (.cons rfl
    (.cons (he _) (.cons rfl (.cons rfl (.cons rfl (.cons rfl h3))))))))))))))

theorem read_withdraw {from_ src to_ emit m c : Bytes} {it : Item} (hf : from_.length = 20) (hs : src.length = 20) (ht : to_.length = 20)
    (he : ∀ rest, readInstr (emit ++ rest) = some (.push it, rest)) (hm : m.length < 75) (hc : c.length < 75) :
    Script (withdrawScript from_ src to_ emit m c)
      [.push (.bytes []), .newStruct, .toAlt, .dupFromAlt, .push (.bytes from_), .append, .dupFromAlt, .push (.bytes src), .append,
        .dupFromAlt, .push (.bytes to_), .append, .dupFromAlt, .push it, .append, .fromAlt,
        .push (.bytes m), .push (.bytes c), .push (.bytes []), .sysCall (asc "Ontology.Native.Invoke")] := by
  have h1 := fun rest => read_push20 from_ rest hf
  have h2 := fun rest => read_push20 to_ rest ht
  have h4 := fun rest => read_push20 src rest hs
  have h3 := read_tail m c hm hc
  unfold withdrawScript
  simp only [List.append_assoc, List.cons_append, List.nil_append] at h1 h2 h3 h4 ⊢
  exact .cons rfl (.cons rfl (.cons rfl (.cons rfl (.cons (h1 _) (.cons rfl (.cons rfl (.cons (h4 _) (.cons rfl (.cons rfl
    (.cons (h2 _) (.cons rfl (.cons rfl
    (.cons (he _) (.cons rfl (.cons rfl h3)))))))))))))))

theorem transfer_runs {from_ to_ emit m c : Bytes} {it : Item} {v : Int} (hf : from_.length = 20) (ht : to_.length = 20)
    (he : ∀ rest, readInstr (emit ++ rest) = some (.push it, rest)) (hn : it.num = some v) (hm : m.length < 75) (hc : c.length < 75) :
    Transfers (transferScript from_ to_ emit m c) c m from_ to_ v :=
  ⟨1, 0, it, [[.bytes from_, .bytes to_, it], [.ref 0]], ⟨_, read_transfer hf ht he hm hc, rfl⟩, rfl, rfl, hn⟩

theorem withdraw_runs {from_ src to_ emit c : Bytes} {it : Item} {v : Int} (hf : from_.length = 20) (hs : src.length = 20)
    (ht : to_.length = 20)
    (he : ∀ rest, readInstr (emit ++ rest) = some (.push it, rest)) (hn : it.num = some v) (hc : c.length < 75) :
    TransfersFrom (withdrawScript from_ src to_ emit (asc "transferFrom") c) c from_ src to_ v :=
  ⟨0, it, [[.bytes from_, .bytes src, .bytes to_, it]], ⟨_, read_withdraw hf hs ht he (by decide +kernel) hc, rfl⟩, rfl, hn⟩

/-- The script built for a state with valid addresses. -/
theorem invoke_transfer {H : Hashes} {v2 : Bool} {emit : Bytes} {s : TxState} {f t : Bytes} (hf : IsAddress H s.from_ f)
    (ht : IsAddress H s.to_ t) (ha : s.assetType = 0 ∨ s.assetType = 1) :
    invokeBytes H v2 emit s = .ok (transferScript f t emit (if v2 then asc "transferV2" else asc "transfer")
      (if s.assetType = 0 then ont else ong)) := by
  unfold invokeBytes transferScript withdrawSource
  rw [(addressHash_iff _ _ _).mpr hf, (addressHash_iff _ _ _).mpr ht]
  rcases ha with ha | ha
  · rw [ha]
    simp only [Res.bind_ok, contractAndMethod, if_true]
    rw [ontContract_eq, if_neg (by decide)]
    simp only [Res.bind_ok]
    rw [if_pos (by decide)]
  · rw [ha]
    simp only [Res.bind_ok, contractAndMethod]
    rw [if_neg (show ¬ (1 : Int) = 2 by decide), if_neg (show ¬ (1 : Int) = 0 by decide), if_pos trivial, ongContract_eq]
    simp only [Res.bind_ok]
    rw [if_pos (by decide), if_neg (show ¬ (1 : Int) = 0 by decide)]

theorem invoke_withdraw {H : Hashes} {v2 : Bool} {emit : Bytes} {s : TxState} {f t : Bytes} (hf : IsAddress H s.from_ f)
    (ht : IsAddress H s.to_ t) (ha : s.assetType = 2) :
    invokeBytes H v2 emit s = .ok (withdrawScript f ont t emit (asc "transferFrom") ong) := by
  unfold invokeBytes withdrawScript withdrawSource
  rw [(addressHash_iff _ _ _).mpr hf, (addressHash_iff _ _ _).mpr ht, ha]
  simp only [Res.bind_ok, contractAndMethod, if_true]
  rw [if_neg (by decide), if_neg (by decide), ongContract_eq, ontContract_eq]
  simp only [Res.bind_ok]
  rw [if_neg (by decide)]

theorem transferScript_length (f t emit m c : Bytes) :
    (transferScript f t emit m c).length = f.length + t.length + emit.length + m.length + c.length + 41 := by
  have e1 : uint64ToEmitBytes 1 = [0x51] := by decide +kernel
  have e2 : (asc "Ontology.Native.Invoke").length = 22 := by decide +kernel
  simp only [transferScript, e1, List.length_append, List.length_cons, List.length_nil, e2]
  omega

theorem withdrawScript_length (f r t emit m c : Bytes) :
    (withdrawScript f r t emit m c).length = f.length + r.length + t.length + emit.length + m.length + c.length + 42 := by
  have e2 : (asc "Ontology.Native.Invoke").length = 22 := by decide +kernel
  simp only [withdrawScript, List.length_append, List.length_cons, List.length_nil, e2]
  omega

/-- What every creation returns: an unsigned transaction with these fields and this script, its hash, and the addresses that must sign. -/
structure Created (H : Hashes) (nonce : UInt32) (gasPrice gasLimit : UInt64) (payer : Bytes) (script : Bytes) (text hash : Bytes) :
    Prop where
  tx : ∃ b t, Hex.decode text = .ok b ∧ decodeRawTransaction b = .ok t ∧ t.sigDatas = [] ∧ leNat t.nonce = nonce.toNat ∧
    leNat t.gasPrice = gasPrice.toNat ∧ leNat t.gasLimit = gasLimit.toNat ∧ t.payer = payer ∧ t.payload = script ∧
    hash = Hex.encode (H.hash .sha256 (H.hash .doubleSha256 b.dropLast))

theorem createWith_eq {H : Hashes} {v2 : Bool} {emit : Bytes} {nonce : UInt32} {gasPrice gasLimit : UInt64} {s : TxState}
    {script payer : Bytes} {pre : UInt8} (hs : invokeBytes H v2 emit s = .ok script) (h0 : script ≠ []) (hl : script.length < 256)
    (hp : decodeCheck H (if s.payer = [] then s.from_ else s.payer) = .ok (pre, payer)) (hpl : payer.length = 20) :
    ∃ text hash, createWith H v2 emit nonce gasPrice gasLimit s =
        .ok (text, hash, if s.payer = [] ∨ s.payer = s.from_ then [s.from_] else [s.payer, s.from_]) ∧
      Created H nonce gasPrice gasLimit payer script text hash := by
  let t : Transaction := ⟨0x00, 0xD1, leBytes 4 nonce.toNat, leBytes 8 gasPrice.toNat, leBytes 8 gasLimit.toNat, payer, script, 0, []⟩
  have hw : Wf t := ⟨rfl, rfl, by simp [t], by simp [t], by simp [t], hpl, h0, rfl⟩
  refine ⟨Hex.encode (body t ++ [0]), Hex.encode (signHash H (body t ++ [0])), ?_, ⟨body t ++ [0], t, Hex.decode_encode _, ?_, rfl, ?_, ?_, ?_, rfl, rfl, ?_⟩⟩
  · unfold createWith
    simp only
    rw [hs]
    simp only [Res.bind_ok]
    unfold newEmptyTransaction
    rw [hp]
    simp only [Res.bind_ok]
    rw [toBytes_eq hw]
    simp only [Res.bind_ok]
    congr 3
    by_cases c : s.payer = []
    · rw [if_pos c, if_neg (by simp), if_pos (Or.inl c)]
    · rw [if_neg c]
      by_cases c2 : s.payer = s.from_
      · rw [if_neg (by simp [c2]), if_pos (Or.inr c2), c2]
      · rw [if_pos c2, if_neg (by simp [c, c2])]
  · rw [decode_body hw hl]
    rfl
  · exact leNat_leBytes_of_lt nonce.toNat_lt
  · exact leNat_leBytes_of_lt gasPrice.toNat_lt
  · exact leNat_leBytes_of_lt gasLimit.toNat_lt
  · rw [signHash_eq, List.dropLast_concat]

theorem emit_length_uint64 (n : UInt64) : (uint64ToEmitBytes n).length ≤ 10 := by
  unfold uint64ToEmitBytes
  split
  · simp
  split
  · simp
  rename_i h0 _
  have hn0 : n.toNat ≠ 0 := fun h => h0 (UInt64.toNat_inj.mp h)
  have hlt := n.toNat_lt
  rw [neo_eq (by omega)]
  have hp := (neoBody_pos (x := n.toNat) (by omega)).2
  have hl := (OwKeychain.bigBytes_length_le n.toNat 8).mpr (by omega)
  simp only [Int.natAbs_natCast] at hp
  rw [getLength, if_pos (by omega)]
  simp; omega

theorem emit_length_bigint (x : Int) (h0 : 0 ≤ x) (hx : x < 256 ^ 70) : (bigIntToEmitBytes x).length ≤ 72 := by
  unfold bigIntToEmitBytes
  split
  · simp
  split
  · simp
  split
  · simp
  rename_i h1 _
  rw [neo_eq (by omega)]
  have hp := (neoBody_pos (x := x) (by omega)).2
  have hl := (OwKeychain.bigBytes_length_le x.natAbs 70).mpr (by omega)
  rw [getLength, if_pos (by omega)]
  simp; omega

end Ontology

/-- C69 for `CreateRawTransactionAndHash`, transfers: with valid sender, receiver and payer the call succeeds, and the transaction's script
makes the VM transfer exactly the amount from sender to receiver in the token asked for. The payer (by default the sender) pays, with the
gas limits given. The signers are payer and sender. -/
theorem C69_transfer (H : Hashes) (nonce : UInt32) (gasPrice gasLimit : UInt64) (s : TxState) (amount : UInt64) (f t p : Bytes)
    (hf : IsAddress H s.from_ f) (ht : IsAddress H s.to_ t) (hp : IsAddress H (if s.payer = [] then s.from_ else s.payer) p)
    (ha : s.assetType = 0 ∨ s.assetType = 1) :
    ∃ text hash script, create H nonce gasPrice gasLimit s amount =
        .ok (text, hash, if s.payer = [] ∨ s.payer = s.from_ then [s.from_] else [s.payer, s.from_]) ∧
      Created H nonce gasPrice gasLimit p script text hash ∧
      Transfers script (if s.assetType = 0 then ont else ong) (asc "transfer") f t amount.toNat := by
  have hc : (if s.assetType = 0 then ont else ong).length = 20 := by split <;> rfl
  obtain ⟨it, he, hn⟩ := C40_uint64 amount
  have hi := invoke_transfer (v2 := false) (emit := uint64ToEmitBytes amount) hf ht ha
  have hel := emit_length_uint64 amount
  have hml : (asc "transfer").length = 8 := by decide +kernel
  have hlen := transferScript_length f t (uint64ToEmitBytes amount) (asc "transfer") (if s.assetType = 0 then ont else ong)
  simp only [Bool.false_eq_true, if_false] at hi
  rw [hf.1, ht.1, hml, hc] at hlen
  obtain ⟨text, hash, h1, h2⟩ := createWith_eq (nonce := nonce) (gasPrice := gasPrice) (gasLimit := gasLimit) hi
    (fun h0 => by rw [h0] at hlen; simp at hlen) (by omega) ((decodeCheck_iff H _ _ _).mpr hp.2) hp.1
  exact ⟨text, hash, _, h1, h2, transfer_runs hf.1 ht.1 he hn (by omega) (by omega)⟩

/-- The same for `CreateRawTransactionAndHashV2` and every amount from 0 up (below 2^560; tokens have far less). -/
theorem C69_transferV2 (H : Hashes) (nonce : UInt32) (gasPrice gasLimit : UInt64) (s : TxState) (amount : Int) (f t p : Bytes)
    (hf : IsAddress H s.from_ f) (ht : IsAddress H s.to_ t) (hp : IsAddress H (if s.payer = [] then s.from_ else s.payer) p)
    (ha : s.assetType = 0 ∨ s.assetType = 1) (h0 : 0 ≤ amount) (hm : amount < 256 ^ 70) :
    ∃ text hash script, createV2 H nonce gasPrice gasLimit s amount =
        .ok (text, hash, if s.payer = [] ∨ s.payer = s.from_ then [s.from_] else [s.payer, s.from_]) ∧
      Created H nonce gasPrice gasLimit p script text hash ∧
      Transfers script (if s.assetType = 0 then ont else ong) (asc "transferV2") f t amount := by
  have hc : (if s.assetType = 0 then ont else ong).length = 20 := by split <;> rfl
  obtain ⟨it, he, hn⟩ := C40_bigint_partial amount 70 (by omega) (by omega) (Or.inl h0)
  have hi := invoke_transfer (v2 := true) (emit := bigIntToEmitBytes amount) hf ht ha
  have hel := emit_length_bigint amount h0 hm
  have hml : (asc "transferV2").length = 10 := by decide +kernel
  have hlen := transferScript_length f t (bigIntToEmitBytes amount) (asc "transferV2") (if s.assetType = 0 then ont else ong)
  simp only [if_true] at hi
  rw [hf.1, ht.1, hml, hc] at hlen
  obtain ⟨text, hash, h1, h2⟩ := createWith_eq (nonce := nonce) (gasPrice := gasPrice) (gasLimit := gasLimit) hi
    (fun h0 => by rw [h0] at hlen; simp at hlen) (by omega) ((decodeCheck_iff H _ _ _).mpr hp.2) hp.1
  exact ⟨text, hash, _, h1, h2, transfer_runs hf.1 ht.1 he hn (by omega) (by omega)⟩

/-- C69, withdrawals of ONG: the sender makes the ONT contract's ONG move to the receiver. -/
theorem C69_withdraw (H : Hashes) (nonce : UInt32) (gasPrice gasLimit : UInt64) (s : TxState) (amount : UInt64) (f t p : Bytes)
    (hf : IsAddress H s.from_ f) (ht : IsAddress H s.to_ t) (hp : IsAddress H (if s.payer = [] then s.from_ else s.payer) p)
    (ha : s.assetType = 2) :
    ∃ text hash script, create H nonce gasPrice gasLimit s amount =
        .ok (text, hash, if s.payer = [] ∨ s.payer = s.from_ then [s.from_] else [s.payer, s.from_]) ∧
      Created H nonce gasPrice gasLimit p script text hash ∧ TransfersFrom script ong f ont t amount.toNat := by
  obtain ⟨it, he, hn⟩ := C40_uint64 amount
  have hi := invoke_withdraw (v2 := false) (emit := uint64ToEmitBytes amount) hf ht ha
  have hel := emit_length_uint64 amount
  have hml : (asc "transferFrom").length = 12 := by decide +kernel
  have hc : ont.length = 20 ∧ ong.length = 20 := ⟨rfl, rfl⟩
  have hlen := withdrawScript_length f ont t (uint64ToEmitBytes amount) (asc "transferFrom") ong
  rw [hf.1, ht.1, hml, hc.1, hc.2] at hlen
  obtain ⟨text, hash, h1, h2⟩ := createWith_eq (nonce := nonce) (gasPrice := gasPrice) (gasLimit := gasLimit) hi
    (fun h0 => by rw [h0] at hlen; simp at hlen) (by omega) ((decodeCheck_iff H _ _ _).mpr hp.2) hp.1
  exact ⟨text, hash, _, h1, h2, withdraw_runs hf.1 rfl ht.1 he hn (by rw [hc.2]; omega)⟩

/-- The same for V2. -/
theorem C69_withdrawV2 (H : Hashes) (nonce : UInt32) (gasPrice gasLimit : UInt64) (s : TxState) (amount : Int) (f t p : Bytes)
    (hf : IsAddress H s.from_ f) (ht : IsAddress H s.to_ t) (hp : IsAddress H (if s.payer = [] then s.from_ else s.payer) p)
    (ha : s.assetType = 2) (h0 : 0 ≤ amount) (hm : amount < 256 ^ 70) :
    ∃ text hash script, createV2 H nonce gasPrice gasLimit s amount =
        .ok (text, hash, if s.payer = [] ∨ s.payer = s.from_ then [s.from_] else [s.payer, s.from_]) ∧
      Created H nonce gasPrice gasLimit p script text hash ∧ TransfersFrom script ong f ont t amount := by
  obtain ⟨it, he, hn⟩ := C40_bigint_partial amount 70 (by omega) (by omega) (Or.inl h0)
  have hi := invoke_withdraw (v2 := true) (emit := bigIntToEmitBytes amount) hf ht ha
  have hel := emit_length_bigint amount h0 hm
  have hml : (asc "transferFrom").length = 12 := by decide +kernel
  have hc : ont.length = 20 ∧ ong.length = 20 := ⟨rfl, rfl⟩
  have hlen := withdrawScript_length f ont t (bigIntToEmitBytes amount) (asc "transferFrom") ong
  rw [hf.1, ht.1, hml, hc.1, hc.2] at hlen
  obtain ⟨text, hash, h1, h2⟩ := createWith_eq (nonce := nonce) (gasPrice := gasPrice) (gasLimit := gasLimit) hi
    (fun h0 => by rw [h0] at hlen; simp at hlen) (by omega) ((decodeCheck_iff H _ _ _).mpr hp.2) hp.1
  exact ⟨text, hash, _, h1, h2, withdraw_runs hf.1 rfl ht.1 he hn (by rw [hc.2]; omega)⟩

theorem Ontology.addresses_checked {H : Hashes} {v2 : Bool} {emit : Bytes} {nonce : UInt32} {gasPrice gasLimit : UInt64} {s : TxState}
    {r : Bytes × Bytes × List Bytes} (h : createWith H v2 emit nonce gasPrice gasLimit s = .ok r) :
    (∃ f, IsAddress H s.from_ f) ∧ ∃ t, IsAddress H s.to_ t := by
  unfold createWith at h
  obtain ⟨pl, hp, -⟩ := Res.bind_eq_ok.mp h
  unfold invokeBytes at hp
  obtain ⟨f, hf, hp⟩ := Res.bind_eq_ok.mp hp
  obtain ⟨_, -, hp⟩ := Res.bind_eq_ok.mp hp
  obtain ⟨t, ht, -⟩ := Res.bind_eq_ok.mp hp
  exact ⟨⟨f, (addressHash_iff _ _ _).mp hf⟩, ⟨t, (addressHash_iff _ _ _).mp ht⟩⟩

/-- C69, the converse: sender and receiver are checked. Neither version of the API creates a transaction unless both are addresses. -/
theorem C69_addresses_checked (H : Hashes) (nonce : UInt32) (gasPrice gasLimit : UInt64) (s : TxState) (r : Bytes × Bytes × List Bytes)
    (h : (∃ amount, create H nonce gasPrice gasLimit s amount = .ok r) ∨ ∃ amount, createV2 H nonce gasPrice gasLimit s amount = .ok r) :
    (∃ f, IsAddress H s.from_ f) ∧ ∃ t, IsAddress H s.to_ t := by
  rcases h with ⟨_, h⟩ | ⟨_, h⟩
  · exact addresses_checked h
  · exact addresses_checked h

/-- Where C69 fails: the payer is not checked. A payer text of any other kind (a Bitcoin address, say) is accepted, and its hash is charged
as if it were an Ontology account. -/
theorem C69_payer_violated (H : Hashes) (nonce : UInt32) (gasPrice gasLimit : UInt64) (s : TxState) (amount : UInt64) (f t p : Bytes)
    (pre : UInt8) (hf : IsAddress H s.from_ f) (ht : IsAddress H s.to_ t) (hne : s.payer ≠ []) (hpl : p.length = 20)
    (hp : IsBase58Check H Btc.alphabet [pre] p s.payer) (ha : s.assetType = 0 ∨ s.assetType = 1) :
    ∃ text hash signers script, create H nonce gasPrice gasLimit s amount = .ok (text, hash, signers) ∧
      Created H nonce gasPrice gasLimit p script text hash := by
  have hi := invoke_transfer (v2 := false) (emit := uint64ToEmitBytes amount) hf ht ha
  have hel := emit_length_uint64 amount
  have hc : (if s.assetType = 0 then ont else ong).length = 20 := by split <;> rfl
  have hml : (asc "transfer").length = 8 := by decide +kernel
  have hlen := transferScript_length f t (uint64ToEmitBytes amount) (asc "transfer") (if s.assetType = 0 then ont else ong)
  simp only [Bool.false_eq_true, if_false] at hi
  rw [hf.1, ht.1, hml, hc] at hlen
  obtain ⟨text, hash, h1, h2⟩ := createWith_eq (nonce := nonce) (gasPrice := gasPrice) (gasLimit := gasLimit) hi
    (fun h0 => by rw [h0] at hlen; simp at hlen) (by omega) (by rw [if_neg hne]; exact (decodeCheck_iff H _ _ _).mpr hp) hpl
  exact ⟨text, hash, _, _, h1, h2⟩

/-- Addresses exist: every twenty bytes have one. -/
theorem C69_address_exists (H : Hashes) (h : Bytes) (hl : h.length = 20) : ∃ text, IsAddress H text h := by
  obtain ⟨t, -, h2, -⟩ := C01_base58_roundtrip _ Btc.alphabet_ok ([0x17] ++ h ++ (H.hash .doubleSha256 ([0x17] ++ h)).take 4)
  exact ⟨t, hl, h2⟩

example : ∃ f t, IsAddress toyHashes f (List.replicate 20 1) ∧ IsAddress toyHashes t (List.replicate 20 2) :=
  ⟨_, _, (C69_address_exists toyHashes _ rfl).choose_spec, (C69_address_exists toyHashes _ rfl).choose_spec⟩

/-- C69, reading back: what the package decodes from a created transaction shows the nonce, the gas settings, the payer's address text and
the script, through its getters. -/
theorem C69_read_back (H : Hashes) (nonce : UInt32) (gasPrice gasLimit : UInt64) (payerText p script text hash : Bytes)
    (h : Created H nonce gasPrice gasLimit p script text hash) (hp : IsAddress H payerText p) :
    ∃ b t, Hex.decode text = .ok b ∧ decodeRawTransaction b = .ok t ∧ getNonce t = .ok nonce.toNat ∧ getGasPrice t = .ok gasPrice.toNat ∧
      getGasLimit t = .ok gasLimit.toNat ∧ getPayer H t = .ok payerText ∧ getPayLoad t = Hex.encode script := by
  obtain ⟨b, t, h1, h2, -, h4, h5, h6, h7, h8, -⟩ := h.tx
  obtain ⟨hw, -⟩ := decode_wf h2
  have le : ∀ {n v : Nat} {x : Bytes}, x.length = n → leNat x = v → leUint n x = .ok v := by
    intro n v x hl hv
    unfold leUint
    rw [if_neg (by omega), ← hl, List.take_length, hv]
  refine ⟨b, t, h1, h2, le hw.3 h4, le hw.4 h5, le hw.5 h6, ?_, by rw [getPayLoad, h8]⟩
  unfold getPayer Btc.encodeCheck
  rw [h7]
  exact (Addr.encode_iff Btc.alphabet_ok _ _).mpr hp.2

/-- With a payer text of another kind (`C69_payer_violated`) the payer read back is an account the caller did not name. -/
theorem C69_read_back_violated (H : Hashes) (nonce : UInt32) (gasPrice gasLimit : UInt64) (payerText p script text hash : Bytes) (pre : UInt8)
    (h : Created H nonce gasPrice gasLimit p script text hash) (hp : IsBase58Check H Btc.alphabet [pre] p payerText) (hne : pre ≠ 0x17) :
    ∃ b t other, Hex.decode text = .ok b ∧ decodeRawTransaction b = .ok t ∧ getPayer H t = .ok other ∧ other ≠ payerText := by
  obtain ⟨b, t, h1, h2, -, -, -, -, h7, -, -⟩ := h.tx
  obtain ⟨a, ha, hb, -⟩ := C01_base58_roundtrip _ Btc.alphabet_ok ([0x17] ++ p ++ (H.hash .doubleSha256 ([0x17] ++ p)).take 4)
  refine ⟨b, t, a, h1, h2, by unfold getPayer Btc.encodeCheck; rw [h7]; exact ha, ?_⟩
  rintro rfl
  have e1 := (decodeCheck_iff H _ _ _).mpr hp
  rw [(decodeCheck_iff H _ _ _).mpr hb] at e1
  have := Res.ok.inj e1
  simp only [Prod.mk.injEq] at this
  exact hne this.1.symm

/-- A created transaction exists: the hypotheses of the two theorems above are met by every transfer of `C69_transfer`. -/
example (H : Hashes) (f t : Bytes) (hf : IsAddress H f (List.replicate 20 1)) (ht : IsAddress H t (List.replicate 20 2)) :
    ∃ text hash script, Created H 7 500 20000 (List.replicate 20 1) script text hash ∧ IsAddress H f (List.replicate 20 1) := by
  obtain ⟨text, hash, script, -, h, -⟩ := C69_transfer H 7 500 20000 ⟨0, [], f, t⟩ 5 _ _ (List.replicate 20 1) hf ht (by simpa using hf) (Or.inl rfl)
  exact ⟨text, hash, script, h, hf⟩

end Verif
