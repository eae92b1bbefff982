import Verif.Lemmas.Ontology

/-! C39, C40, C69: Ontology transactions. -/

namespace Verif
open Verif.Ontology Verif.Spec.OntVM

/-! ### C40: amounts in scripts -/

/-- C40 for the `uint64` amounts of `CreateRawTransactionAndHash`, all of them: the VM reads the bytes as one push of the amount. -/
theorem C40_uint64 (n : UInt64) :
    ∃ it, (∀ rest, readInstr (uint64ToEmitBytes n ++ rest) = some (.push it, rest)) ∧ it.num = some (n.toNat : Int) := by
  unfold uint64ToEmitBytes
  by_cases h0 : n = 0
  · rw [if_pos h0, h0]
    exact ⟨.bytes [], fun _ => rfl, rfl⟩
  rw [if_neg h0]
  have hn0 : n.toNat ≠ 0 := fun h => h0 (UInt64.toNat_inj.mp h)
  have hlt := n.toNat_lt
  by_cases h1 : 0 < n ∧ n < 16
  · rw [if_pos h1]
    have h2 : n.toNat < 16 := UInt64.lt_iff_toNat_lt.mp h1.2
    have e : (UInt8.ofNat n.toNat).toNat = n.toNat := by rw [UInt8.toNat_ofNat']; omega
    refine ⟨_, fun rest => readInstr_small _ (by omega) (by omega) rest, ?_⟩
    rw [e]
    rfl
  · rw [if_neg h1, neo_eq (by omega)]
    have hp := neoBody_pos (x := n.toNat) (by omega)
    have hl := (OwKeychain.bigBytes_length_le n.toNat 8).mpr (by omega)
    simp only [Int.natAbs_natCast] at hp
    exact ⟨_, fun rest => readInstr_push _ rest (by omega), by simp only [Item.num, hp.1]⟩

example : uint64ToEmitBytes 200 = [0x02, 0xC8, 0x00] := by decide +kernel

/-- C40 for the integers of `CreateRawTransactionAndHashV2`: all numbers that are not negative, -1, and the negative numbers whose
absolute value has a clear top bit or is a power of two with a set one. (The size bound is the VM's: a push has less than 2^32 bytes.)
Missing: the other negative numbers, for which it is false (`C40_negative_violated`). -/
theorem C40_bigint_partial (x : Int) (k : Nat) (hk : k < 2 ^ 32 - 2) (hx : x.natAbs < 256 ^ k)
    (h : 0 ≤ x ∨ x = -1 ∨ ∃ j, 256 ^ j ≤ x.natAbs ∧ x.natAbs ≤ 128 * 256 ^ j) :
    ∃ it, (∀ rest, readInstr (bigIntToEmitBytes x ++ rest) = some (.push it, rest)) ∧ it.num = some x := by
  unfold bigIntToEmitBytes
  by_cases hm : x = -1
  · rw [if_pos hm, hm]
    exact ⟨.int (-1), fun _ => rfl, rfl⟩
  rw [if_neg hm]
  by_cases h0 : x = 0
  · rw [if_pos h0, h0]
    exact ⟨.bytes [], fun _ => rfl, rfl⟩
  rw [if_neg h0]
  by_cases h1 : 0 < x ∧ x < 16
  · rw [if_pos h1]
    have e : (UInt8.ofNat x.toNat).toNat = x.toNat := by rw [UInt8.toNat_ofNat']; omega
    refine ⟨_, fun rest => readInstr_small _ (by omega) (by omega) rest, ?_⟩
    simp only [Item.num, e]
    congr 1
    omega
  · rw [if_neg h1, neo_eq h0]
    have hl := (OwKeychain.bigBytes_length_le x.natAbs k).mpr hx
    by_cases hpos : 0 < x
    · have hp := neoBody_pos hpos
      exact ⟨_, fun rest => readInstr_push _ rest (by omega), by simp only [Item.num, hp.1]⟩
    · obtain ⟨j, j1, j2⟩ := (h.resolve_left (by omega)).resolve_left hm
      have hp := neoBody_neg_ok (by omega) j1 j2
      have hjk : j < k := by
        by_contra hc
        have : 256 ^ k ≤ 256 ^ j := Nat.pow_le_pow_right (by omega) (by omega)
        omega
      exact ⟨_, fun rest => readInstr_push _ rest (by omega), by simp only [Item.num, hp.1]⟩

example : (∃ j, 256 ^ j ≤ (-70000 : Int).natAbs ∧ (-70000 : Int).natAbs ≤ 128 * 256 ^ j) ∧ (-70000 : Int).natAbs < 256 ^ 3 :=
  ⟨⟨2, by decide, by decide⟩, by decide⟩

/-- Where C40 fails: every negative number whose absolute value has its top bit set (the power of two excepted) is pushed as a larger
number; -129 becomes 127 and -255 becomes 1. -/
theorem C40_negative_violated (x : Int) (k : Nat) (hk : k < 2 ^ 32 - 2) (hx : x < 0) (h1 : 128 * 256 ^ k < x.natAbs)
    (h2 : x.natAbs < 256 ^ (k + 1)) :
    ∃ it v, (∀ rest, readInstr (bigIntToEmitBytes x ++ rest) = some (.push it, rest)) ∧ it.num = some v ∧ x < v := by
  have hp0 : 0 < 256 ^ k := by positivity
  unfold bigIntToEmitBytes
  rw [if_neg (by omega), if_neg (by omega), if_neg (by omega), neo_eq (by omega)]
  have hp := neoBody_neg_bad hx h1 h2
  exact ⟨_, _, fun rest => readInstr_push _ rest (by omega), rfl, hp.1⟩

example : (128 * 256 ^ 0 < (-129 : Int).natAbs ∧ (-129 : Int).natAbs < 256 ^ (0 + 1)) ∧ bigIntToEmitBytes (-129) = [0x01, 0x7F] ∧
    bigIntToEmitBytes (-255) = [0x01, 0x01] := by decide +kernel

/-! ### C39: the transaction format -/

/-- What the fields of a transaction must be to be serialised. -/
structure Ontology.Wf (t : Transaction) : Prop where
  version : t.version = 0
  txType : t.txType = 0xD1
  nonce : t.nonce.length = 4
  gasPrice : t.gasPrice.length = 8
  gasLimit : t.gasLimit.length = 8
  payer : t.payer.length = 20
  payload : t.payload ≠ []
  attributes : t.attributes = 0

/-- A signature and a compressed key of the usual sizes. -/
def Ontology.SigPub.Wf (s : SigPub) : Prop := s.signature.length = 64 ∧ s.publicKey.length = 33

/-- The program on the wire: push of the signature; push of the key followed by CHECKSIG. -/
def Spec.ontSig (s : SigPub) : Bytes := [0x41, 0x40] ++ s.signature ++ [0x23, 0x21] ++ s.publicKey ++ [0xAC]

namespace Ontology

def body (t : Transaction) : Bytes :=
  [t.version] ++ [t.txType] ++ t.nonce ++ t.gasPrice ++ t.gasLimit ++ t.payer ++ [UInt8.ofNat t.payload.length] ++ t.payload ++
    [t.attributes]

theorem toBytes_eq {t : Transaction} (h : Wf t) : toBytes t = .ok (body t ++ sigDatasBytes t.sigDatas) := by
  have hp : t.payload.length ≠ 0 := fun hc => h.payload (List.length_eq_zero_iff.mp hc)
  unfold toBytes body
  rw [if_neg (by simp [h.nonce]), if_neg (by simp [h.gasPrice]), if_neg (by simp [h.gasLimit]), if_neg (by simp [h.payer]), if_neg hp]

theorem decode_body {t : Transaction} (h : Wf t) (hl : t.payload.length < 256) (rest : Bytes) :
    decodeRawTransaction (body t ++ rest) = (do
      let sigs ← decodeSigDatas rest
      .ok { t with sigDatas := sigs }) := by
  obtain ⟨ver, ty, nonce, gp, gl, payer, payload, attr, sd⟩ := t
  have hp : payload.length ≠ 0 := fun hc => h.payload (List.length_eq_zero_iff.mp hc)
  have e : (UInt8.ofNat payload.length).toNat = payload.length := by rw [UInt8.toNat_ofNat']; simp only at hl; omega
  have a1 := h.version
  have a2 := h.txType
  have a3 := h.attributes
  simp only at a1 a2 a3
  subst a1 a2 a3
  unfold decodeRawTransaction body
  simp only [List.append_assoc, List.cons_append, List.nil_append, Btc.take1, Res.bind_ok]
  rw [if_neg (by decide), if_neg (by decide), Btc.takeN_append _ _ h.nonce]
  simp only [Res.bind_ok]
  rw [Btc.takeN_append _ _ h.gasPrice]
  simp only [Res.bind_ok]
  rw [Btc.takeN_append _ _ h.gasLimit]
  simp only [Res.bind_ok]
  rw [Btc.takeN_append _ _ h.payer]
  simp only [Res.bind_ok]
  rw [if_neg (fun hc => hp (by rw [← e, hc]; rfl)), e, Btc.takeN_append _ _ rfl]
  simp only [Res.bind_ok]
  rw [if_neg (by decide)]

theorem sig_toBytes {s : SigPub} (h : SigPub.Wf s) : s.toBytes = Spec.ontSig s := by
  unfold SigPub.toBytes Spec.ontSig
  simp only [List.length_cons, List.length_append, List.length_nil, h.1, h.2, List.append_assoc, List.cons_append, List.nil_append]
  rfl

theorem sig_length {s : SigPub} (h : SigPub.Wf s) : (Spec.ontSig s).length = 102 := by
  simp [Spec.ontSig, h.1, h.2]

theorem decode_sig {s : SigPub} (h : SigPub.Wf s) : decodeSigPubBytes (Spec.ontSig s) = .ok s := by
  unfold decodeSigPubBytes Spec.ontSig
  simp only [List.append_assoc]
  rw [Btc.takeN_append (n := 2) _ _ rfl]
  simp only [Res.bind_ok]
  rw [if_neg (by simp), Btc.takeN_append _ _ h.1]
  simp only [Res.bind_ok]
  rw [Btc.takeN_append (n := 2) _ _ rfl]
  simp only [Res.bind_ok]
  rw [if_neg (by simp), slice_prefix _ _ h.2, List.drop_left' h.2]
  rfl

theorem decodeSigs_eq (l : List SigPub) (h : ∀ s ∈ l, SigPub.Wf s) :
    decodeSigs l.length (l.flatMap SigPub.toBytes) = .ok (l.map fun s => ⟨0, [s]⟩) := by
  induction l with
  | nil => rfl
  | cons s r ih =>
    have hs := h s (by simp)
    simp only [List.length_cons, List.flatMap_cons, decodeSigs, sig_toBytes hs]
    rw [Btc.takeN_append _ _ (sig_length hs)]
    simp only [Res.bind_ok]
    rw [decode_sig hs, ih (fun x hx => h x (by simp [hx]))]
    rfl

theorem decodeSigDatas_many (l : List SigPub) (h : ∀ s ∈ l, SigPub.Wf s) (h1 : 1 < l.length) (h2 : l.length < 256) :
    decodeSigDatas (UInt8.ofNat l.length :: l.flatMap SigPub.toBytes) = .ok (l.map fun s => ⟨0, [s]⟩) := by
  have e : (UInt8.ofNat l.length).toNat = l.length := by rw [UInt8.toNat_ofNat']; omega
  unfold decodeSigDatas
  simp only [Btc.take1, Res.bind_ok]
  rw [if_neg (fun hc => by rw [hc] at e; simp at e; omega), if_neg (fun hc => by rw [hc] at e; simp at e; omega), e, decodeSigs_eq l h]

theorem decodeSigDatas_one (rest : Bytes) : decodeSigDatas (0x01 :: rest) = .err := by
  unfold decodeSigDatas
  simp only [Btc.take1, Res.bind_ok]
  rw [if_neg (by decide), if_pos trivial]
  cases rest with
  | nil => rfl
  | cons x xs =>
    have : decodeSigPubBytes (0x01 :: x :: xs) = .err := by
      unfold decodeSigPubBytes
      rw [show (0x01 :: x :: xs : Bytes) = [0x01, x] ++ xs from rfl, Btc.takeN_append (n := 2) _ _ rfl]
      simp only [Res.bind_ok]
      rw [if_pos (by simp)]
    rw [this]
    rfl

theorem signHash_eq (H : Hashes) (b : Bytes) (x : UInt8) : signHash H (b ++ [x]) = H.hash .sha256 (H.hash .doubleSha256 b) := by
  simp [signHash]

end Ontology
open Ontology

/-- C39, unsigned transactions: decoding inverts serialisation. (Scripts of 1 to 255 bytes; see `C39_long_script_violated` for longer
ones.) -/
theorem C39_unsigned_partial (t : Transaction) (h : Wf t) (hs : t.sigDatas = []) (hl : t.payload.length < 256) :
    ∃ b, toBytes t = .ok b ∧ decodeRawTransaction b = .ok t := by
  refine ⟨_, toBytes_eq h, ?_⟩
  rw [decode_body h hl, hs]
  show Res.ok { t with sigDatas := [] } = _
  rw [← hs]

/-- C39, two to 255 signatures: they all come back, in order. Missing: they come back as one `SigData` each and not as the one `SigData`
they were serialised from, so that the transaction is not the same (`C39_recombine_violated`); and the case of one signature. -/
theorem C39_signed_partial (t : Transaction) (l : List SigPub) (h : Wf t) (hs : t.sigDatas = [⟨0, l⟩]) (hl : t.payload.length < 256)
    (hw : ∀ s ∈ l, SigPub.Wf s) (h1 : 1 < l.length) (h2 : l.length < 256) :
    ∃ b, toBytes t = .ok b ∧ decodeRawTransaction b = .ok { t with sigDatas := l.map fun s => ⟨0, [s]⟩ } := by
  refine ⟨_, toBytes_eq h, ?_⟩
  rw [decode_body h hl, hs]
  simp only [sigDatasBytes, if_true]
  rw [decodeSigDatas_many l hw h1 h2]
  rfl

/-- Where C39 fails (a): a transaction with exactly one signature (the usual transfer) never decodes. -/
theorem C39_one_signature_violated (t : Transaction) (s : SigPub) (h : Wf t) (hs : t.sigDatas = [⟨0, [s]⟩]) (hl : t.payload.length < 256) :
    ∃ b, toBytes t = .ok b ∧ decodeRawTransaction b = .err := by
  refine ⟨_, toBytes_eq h, ?_⟩
  rw [decode_body h hl, hs]
  simp only [sigDatasBytes, if_true]
  rw [show UInt8.ofNat [s].length = 0x01 from rfl, decodeSigDatas_one]
  rfl

/-- Where C39 fails (b): a script of more than 255 bytes is serialised with its length reduced modulo 256, and does not come back. -/
theorem C39_long_script_violated (t : Transaction) (h : Wf t) (hl : 255 < t.payload.length) :
    ∃ b, toBytes t = .ok b ∧ decodeRawTransaction b ≠ .ok t := by
  refine ⟨_, toBytes_eq h, fun hc => ?_⟩
  generalize body t ++ sigDatasBytes t.sigDatas = b at hc
  unfold decodeRawTransaction at hc
  obtain ⟨⟨ver, b1⟩, -, hc⟩ := Res.bind_eq_ok.mp hc
  simp only at hc
  split at hc
  · cases hc
  obtain ⟨⟨ty, b2⟩, -, hc⟩ := Res.bind_eq_ok.mp hc
  simp only at hc
  split at hc
  · cases hc
  obtain ⟨⟨_, _⟩, -, hc⟩ := Res.bind_eq_ok.mp hc
  obtain ⟨⟨_, _⟩, -, hc⟩ := Res.bind_eq_ok.mp hc
  obtain ⟨⟨_, _⟩, -, hc⟩ := Res.bind_eq_ok.mp hc
  obtain ⟨⟨_, _⟩, -, hc⟩ := Res.bind_eq_ok.mp hc
  obtain ⟨⟨len, b7⟩, -, hc⟩ := Res.bind_eq_ok.mp hc
  simp only at hc
  split at hc
  · cases hc
  obtain ⟨⟨pl, b8⟩, hp, hc⟩ := Res.bind_eq_ok.mp hc
  obtain ⟨⟨at_, b9⟩, -, hc⟩ := Res.bind_eq_ok.mp hc
  simp only at hc
  split at hc
  · cases hc
  obtain ⟨sg, -, hc⟩ := Res.bind_eq_ok.mp hc
  cases hc
  unfold Btc.takeN at hp
  split at hp
  · cases hp
  cases hp
  have := len.toNat_lt
  simp at hl
  omega

/-- Beyond C39: bytes that decode to an unsigned transaction are exactly its serialisation. -/
theorem C39_decode_canonical (b : Bytes) (t : Transaction) (h : decodeRawTransaction b = .ok t) (hs : t.sigDatas = []) :
    toBytes t = .ok b := by
  have take : ∀ {n : Nat} {x p q : Bytes}, Btc.takeN n x = .ok (p, q) → x = p ++ q ∧ p.length = n := by
    intro n x p q hx
    unfold Btc.takeN at hx
    split at hx
    · cases hx
    · cases hx
      refine ⟨(List.take_append_drop n x).symm, by simp; omega⟩
  have take1 : ∀ {x q : Bytes} {c : UInt8}, Btc.take1 x = .ok (c, q) → x = c :: q := by
    intro x q c hx
    unfold Btc.take1 at hx
    cases x with
    | nil => cases hx
    | cons y ys => cases hx; rfl
  unfold decodeRawTransaction at h
  obtain ⟨⟨ver, b1⟩, h1, h⟩ := Res.bind_eq_ok.mp h
  simp only at h
  split at h
  · cases h
  rename_i hver
  obtain ⟨⟨ty, b2⟩, h2, h⟩ := Res.bind_eq_ok.mp h
  simp only at h
  split at h
  · cases h
  obtain ⟨⟨no, b3⟩, h3, h⟩ := Res.bind_eq_ok.mp h
  obtain ⟨⟨gp, b4⟩, h4, h⟩ := Res.bind_eq_ok.mp h
  obtain ⟨⟨gl, b5⟩, h5, h⟩ := Res.bind_eq_ok.mp h
  obtain ⟨⟨pa, b6⟩, h6, h⟩ := Res.bind_eq_ok.mp h
  obtain ⟨⟨len, b7⟩, h7, h⟩ := Res.bind_eq_ok.mp h
  simp only at h
  split at h
  · cases h
  rename_i hlen
  obtain ⟨⟨pl, b8⟩, h8, h⟩ := Res.bind_eq_ok.mp h
  obtain ⟨⟨at_, b9⟩, h9, h⟩ := Res.bind_eq_ok.mp h
  simp only at h
  split at h
  · cases h
  rename_i hat
  obtain ⟨sg, h10, h⟩ := Res.bind_eq_ok.mp h
  cases h
  simp only at hs h10
  subst hs
  simp only [ne_eq, not_not] at hver hat
  have e1 := take1 h1
  have e2 := take1 h2
  obtain ⟨e3, l3⟩ := take h3
  obtain ⟨e4, l4⟩ := take h4
  obtain ⟨e5, l5⟩ := take h5
  obtain ⟨e6, l6⟩ := take h6
  have e7 := take1 h7
  obtain ⟨e8, l8⟩ := take h8
  have e9 := take1 h9
  have e10 : b9 = [0x00] := by
    unfold decodeSigDatas at h10
    obtain ⟨⟨n, r⟩, q1, h10⟩ := Res.bind_eq_ok.mp h10
    simp only at h10
    have q1 := take1 q1
    split at h10
    · rename_i hn
      split at h10
      · cases h10
      · rename_i hr
        simp only [ne_eq, not_not] at hr
        rw [q1, hn, hr]
    split at h10
    · obtain ⟨sp, -, h10⟩ := Res.bind_eq_ok.mp h10
      cases h10
    · rename_i n0 n1
      have : n.toNat ≠ 0 := fun h => n0 (UInt8.toNat_inj.mp h)
      obtain ⟨k, hk⟩ := Nat.exists_eq_succ_of_ne_zero this
      rw [hk] at h10
      unfold decodeSigs at h10
      obtain ⟨⟨_, _⟩, -, h10⟩ := Res.bind_eq_ok.mp h10
      obtain ⟨_, -, h10⟩ := Res.bind_eq_ok.mp h10
      obtain ⟨_, -, h10⟩ := Res.bind_eq_ok.mp h10
      cases h10
  have hpl : pl.length ≠ 0 := by
    rw [l8]
    exact fun h => hlen (UInt8.toNat_inj.mp h)
  unfold toBytes
  simp only
  rw [if_neg (by omega), if_neg (by omega), if_neg (by omega), if_neg (by omega), if_neg hpl]
  simp only at e4 e5 e6 e7 e9
  rw [e1, e2, e3, e4, e5, e6, e7, e8, e9, e10, hver, hat, l8]
  simp [sigDatasBytes]

/-- An instance for all of these: a 60-byte script and two signatures. -/
def Ontology.sampleTx : Transaction :=
  ⟨0, 0xD1, [1, 2, 3, 4], List.replicate 8 5, List.replicate 8 6, List.replicate 20 7, List.replicate 60 8, 0, []⟩
example : Wf sampleTx := by constructor <;> decide
example : SigPub.Wf ⟨List.replicate 64 1, List.replicate 33 2⟩ := ⟨by decide, by decide⟩

/-! #### Combining -/

namespace Ontology

theorem verifyAll_ok {C : Btc.Curve} {hash : Bytes} {l : List SigPub}
    (h : ∀ s ∈ l, C.decompress s.publicKey ≠ [] ∧ C.verify ((C.decompress s.publicKey).drop 1) hash s.signature = true) :
    verifyAll C hash l = .ok true := by
  induction l with
  | nil => rfl
  | cons s r ih =>
    unfold verifyAll
    have hs := h s (by simp)
    rw [if_neg hs.1, if_neg (by rw [hs.2]; decide)]
    exact ih (fun x hx => h x (by simp [hx]))

theorem verifyAll_true {C : Btc.Curve} {hash : Bytes} {l : List SigPub} (h : verifyAll C hash l = .ok true) :
    ∀ s ∈ l, C.decompress s.publicKey ≠ [] ∧ C.verify ((C.decompress s.publicKey).drop 1) hash s.signature = true := by
  induction l with
  | nil => simp
  | cons s r ih =>
    unfold verifyAll at h
    split at h
    · cases h
    split at h
    · cases h
    rename_i h1 h2
    intro x hx
    rcases List.mem_cons.mp hx with rfl | hx
    · exact ⟨h1, by simpa using h2⟩
    · exact ih h x hx

theorem decode_wf {b : Bytes} {t : Transaction} (hc : decodeRawTransaction b = .ok t) : Wf t ∧ t.payload.length < 256 := by
  have take : ∀ {n : Nat} {x p q : Bytes}, Btc.takeN n x = .ok (p, q) → p.length = n := by
    intro n x p q hx
    unfold Btc.takeN at hx
    split at hx
    · cases hx
    · cases hx
      simp; omega
  unfold decodeRawTransaction at hc
  obtain ⟨⟨ver, b1⟩, -, hc⟩ := Res.bind_eq_ok.mp hc
  simp only at hc
  split at hc
  · cases hc
  obtain ⟨⟨ty, b2⟩, -, hc⟩ := Res.bind_eq_ok.mp hc
  simp only at hc
  split at hc
  · cases hc
  rename_i hty
  obtain ⟨⟨_, _⟩, q1, hc⟩ := Res.bind_eq_ok.mp hc
  obtain ⟨⟨_, _⟩, q2, hc⟩ := Res.bind_eq_ok.mp hc
  obtain ⟨⟨_, _⟩, q3, hc⟩ := Res.bind_eq_ok.mp hc
  obtain ⟨⟨_, _⟩, q4, hc⟩ := Res.bind_eq_ok.mp hc
  obtain ⟨⟨len, b7⟩, -, hc⟩ := Res.bind_eq_ok.mp hc
  simp only at hc
  split at hc
  · cases hc
  rename_i hlen
  obtain ⟨⟨pl, b8⟩, q5, hc⟩ := Res.bind_eq_ok.mp hc
  obtain ⟨⟨at_, b9⟩, -, hc⟩ := Res.bind_eq_ok.mp hc
  simp only at hc
  split at hc
  · cases hc
  obtain ⟨sg, -, hc⟩ := Res.bind_eq_ok.mp hc
  cases hc
  have l5 := take q5
  have := len.toNat_lt
  refine ⟨⟨rfl, by simpa using hty, take q1, take q2, take q3, take q4, ?_, rfl⟩, by simp only; omega⟩
  simp only
  intro h0
  rw [h0] at l5
  exact hlen (UInt8.toNat_inj.mp l5.symm)

end Ontology

/-- C39, combining: signatures that verify over the signing hash of an unsigned transaction are all put behind it, in order; and the
answer is `true` only if every signature verifies over that hash. (`b` is the transaction without the trailing signature count.) -/
theorem C39_combine_partial (H : Hashes) (C : Btc.Curve) (t : Transaction) (l : List SigPub) (h : Wf t) (hs : t.sigDatas = [])
    (hl : t.payload.length < 256) (hw : ∀ s ∈ l, SigPub.Wf s) :
    ∃ b, toBytes t = .ok (b ++ [0]) ∧
      ((∀ s ∈ l, C.decompress s.publicKey ≠ [] ∧
          C.verify ((C.decompress s.publicKey).drop 1) (H.hash .sha256 (H.hash .doubleSha256 b)) s.signature = true) →
        verifyAndCombine H C (Hex.encode (b ++ [0])) l = .ok (true, Hex.encode (b ++ [UInt8.ofNat l.length] ++ l.flatMap Spec.ontSig))) ∧
      (∀ out, verifyAndCombine H C (Hex.encode (b ++ [0])) l = .ok (true, out) → ∀ s ∈ l,
        C.verify ((C.decompress s.publicKey).drop 1) (H.hash .sha256 (H.hash .doubleSha256 b)) s.signature = true) := by
  have hd : decodeRawTransaction (body t ++ [0]) = .ok t := by
    rw [decode_body h hl]
    show Res.ok { t with sigDatas := [] } = _
    rw [← hs]
  refine ⟨body t, by rw [toBytes_eq h, hs]; rfl, fun hv => ?_, fun out ho s hsl => ?_⟩
  · unfold verifyAndCombine
    rw [Hex.decode_encode]
    simp only [Res.bind_ok]
    rw [hd]
    simp only [Res.bind_ok]
    rw [signHash_eq, verifyAll_ok hv]
    simp only [Res.bind_ok]
    rw [if_neg (by simp), toBytes_eq (t := { t with sigDatas := t.sigDatas ++ [⟨0, l⟩] }) ⟨h.1, h.2, h.3, h.4, h.5, h.6, h.7, h.8⟩, hs]
    simp only [List.nil_append, sigDatasBytes, if_true]
    have : l.flatMap SigPub.toBytes = l.flatMap Spec.ontSig := List.flatMap_congr fun s hs => sig_toBytes (hw s hs)
    rw [this]
    simp only [List.append_assoc, List.cons_append, List.nil_append]
    rfl
  · unfold verifyAndCombine at ho
    rw [Hex.decode_encode] at ho
    simp only [Res.bind_ok] at ho
    rw [hd] at ho
    simp only [Res.bind_ok] at ho
    obtain ⟨v, hv, ho⟩ := Res.bind_eq_ok.mp ho
    split at ho
    · cases ho
    rename_i hvt
    have : v = true := by simpa using hvt
    rw [this, signHash_eq] at hv
    exact (verifyAll_true hv s hsl).2

/-- Where C39 fails (c): combining into a transaction that already carries (two or more) signatures keeps its first signature and drops
all others, the new ones included, and still answers `true`. -/
theorem C39_recombine_violated (H : Hashes) (C : Btc.Curve) (t : Transaction) (s : SigPub) (old new : List SigPub) (h : Wf t)
    (hs : t.sigDatas = [⟨0, s :: old⟩]) (hl : t.payload.length < 256) (hw : ∀ x ∈ s :: old, SigPub.Wf x) (h1 : 0 < old.length)
    (h2 : old.length < 255) :
    ∃ b, toBytes t = .ok b ∧ ∃ first, toBytes { t with sigDatas := [⟨0, [s]⟩] } = .ok first ∧
      ((∀ x ∈ new, C.decompress x.publicKey ≠ [] ∧
          C.verify ((C.decompress x.publicKey).drop 1) (signHash H b) x.signature = true) →
        verifyAndCombine H C (Hex.encode b) new = .ok (true, Hex.encode first)) := by
  refine ⟨_, toBytes_eq h, _, toBytes_eq (t := { t with sigDatas := [⟨0, [s]⟩] }) ⟨h.1, h.2, h.3, h.4, h.5, h.6, h.7, h.8⟩, fun hv => ?_⟩
  unfold verifyAndCombine
  rw [Hex.decode_encode]
  simp only [Res.bind_ok]
  rw [decode_body h hl]
  rw [hs] at hv ⊢
  have hm := decodeSigDatas_many (s :: old) hw (by simp; omega) (by simp; omega)
  simp only [sigDatasBytes, if_true] at hv ⊢
  rw [hm]
  simp only [Res.bind_ok]
  rw [verifyAll_ok hv]
  simp only [Res.bind_ok]
  rw [if_neg (by simp)]
  rw [toBytes_eq (t := { t with sigDatas := List.map (fun s => ⟨0, [s]⟩) (s :: old) ++ [⟨0, new⟩] })
    ⟨h.1, h.2, h.3, h.4, h.5, h.6, h.7, h.8⟩]
  rfl

/-- A curve that accepts everything, to show that the hypotheses can be met. -/
example : (verifyAndCombine toyHashes ⟨fun _ => [4], fun _ _ _ => true⟩
    (Hex.encode (body sampleTx ++ [0])) [⟨List.replicate 64 1, List.replicate 33 2⟩]).isOk = true := by decide +kernel

end Verif
