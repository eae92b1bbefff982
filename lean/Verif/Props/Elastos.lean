import Verif.Lemmas.Elastos

/-! C51, C74 and the Elastos part of C55: transfers of package `elastosTransaction`. -/

namespace Verif
open Verif.Elastos Verif.Spec.Elastos

/-- C51: the list of hashes to sign names every address of the inputs, each once, in the order of first use, and gives for each of them the
SHA-256 hash of the returned transaction. -/
theorem C51_hashes (H : Hashes) (vins : List Vin) (vouts : List Vout) (text : Bytes) (hashes : List (Bytes × Bytes))
    (h : createEmpty H vins vouts = .ok (text, hashes)) :
    (hashes.map (·.1)).Nodup ∧
    (∀ a, a ∈ hashes.map (·.1) ↔ a ∈ vins.map (·.address)) ∧
    (hashes.map (·.1)).Pairwise (fun a b => (vins.map (·.address)).idxOf a < (vins.map (·.address)).idxOf b) ∧
    ∃ raw, Hex.decode text = .ok raw ∧ ∀ e ∈ hashes, Hex.decode e.2 = .ok (H.hash .sha256 raw) := by
  unfold createEmpty at h
  split at h
  · cases h
  obtain ⟨tx, _, h⟩ := Res.bind_eq_ok.mp h
  cases h
  have e : ((txHashes (Hex.encode (H.hash .sha256 tx)) vins []).map (·.1)) = firstUse (vins.map (·.address)) := by
    rw [txHashes_eq]
    simp [Function.comp_def]
  refine ⟨by rw [e]; exact firstUse_nodup _, fun a => by rw [e]; exact mem_firstUse a _, by rw [e]; convert firstUse_order (vins.map (·.address)),
    tx, Hex.decode_encode _, ?_⟩
  intro x hx
  rw [txHashes_eq] at hx
  simp only [List.nil_append, List.mem_map] at hx
  obtain ⟨a, _, rfl⟩ := hx
  exact Hex.decode_encode _

/-- An address, for the toy hashes. -/
def Elastos.demo : Bytes := asc "EHcStK3DhYcdvghhosc9kuUhk66YLdTvjd"

/-- Three inputs of two addresses. -/
example : (createEmpty toyHashes
    [⟨Hex.encode (List.replicate 32 1), 0, asc "b"⟩, ⟨Hex.encode (List.replicate 32 1), 1, asc "a"⟩, ⟨Hex.encode (List.replicate 32 2), 0, asc "b"⟩]
    [⟨Hex.encode (List.replicate 32 9), 7, demo⟩] >>= fun r => Res.ok (r.2.map (·.1))) = .ok [asc "b", asc "a"] := by
  decide +kernel

/-! ### C74 -/

/-- C74, the exact condition and result: a request is accepted exactly when it has inputs and outputs, its ids are hex texts and its
receivers are addresses; the text returned is the wire format of the transfer it describes. -/
theorem C74_layout (H : Hashes) (vins : List Vin) (vouts : List Vout) (text : Bytes) (hi : vins.length < 2 ^ 56) (ho : vouts.length < 2 ^ 56) :
    (∃ hashes, createEmpty H vins vouts = .ok (text, hashes)) ↔
      vins ≠ [] ∧ vouts ≠ [] ∧ ∃ t : Tx,
        List.Forall₂ (fun v i => Hex.decode v.txid = .ok i.1 ∧ i.2 = v.vout.toNat) vins t.inputs ∧
        List.Forall₂ (fun v o => Hex.decode v.asset = .ok o.asset ∧ o.amount = v.amount.toNat ∧ o.hash.length = 20 ∧
          Spec.IsBase58Check H Btc.alphabet [0x21] o.hash v.address) vouts t.outputs ∧
        text = Hex.encode t.wire := by
  unfold createEmpty
  constructor
  · rintro ⟨hashes, h⟩
    split at h
    · cases h
    rename_i hne
    obtain ⟨tx, htx, h⟩ := Res.bind_eq_ok.mp h
    cases h
    obtain ⟨t, t1, t2, rfl⟩ := (newTx_iff H vins vouts tx hi ho).mp htx
    refine ⟨?_, ?_, t, t1, t2, rfl⟩
    · rintro rfl; simp at hne
    · rintro rfl; simp at hne
  · rintro ⟨h1, h2, t, t1, t2, rfl⟩
    rw [if_neg (by simp [h1, h2]), (newTx_iff H vins vouts t.wire hi ho).mpr ⟨t, t1, t2, rfl⟩, Res.bind_ok]
    exact ⟨_, rfl⟩

/-- The wire format can be read in one way only, for transfers whose ids have 32 bytes. -/
theorem C74_wire_injective (t u : Tx) (ht : t.Fits) (hu : u.Fits) (h : t.wire = u.wire) : t = u := by
  obtain ⟨ti, to_⟩ := t
  obtain ⟨ui, uo⟩ := u
  unfold Tx.wire at h
  simp only [List.append_assoc, List.cons_append, List.nil_append, List.cons.injEq, true_and] at h
  obtain ⟨hl, h⟩ := uvarint_prefix _ _ h
  obtain ⟨e1, h⟩ := blocks_inj inWire 38 (fun a b => by
      intro ha hb e
      unfold inWire at e
      simp only [List.append_assoc] at e
      obtain ⟨e1, e⟩ := List.append_inj e (by simp [ha.1, hb.1])
      obtain ⟨e2, _⟩ := List.append_inj e (by simp)
      exact Prod.ext (List.reverse_injective e1) (leBytes_inj (by simpa using ha.2) (by simpa using hb.2) e2))
    (P := fun i : Bytes × Nat => i.1.length = 32 ∧ i.2 < 2 ^ 16) (fun i hi => by simp [inWire, hi.1]) hl ht.1 hu.1 h
  obtain ⟨hl, h⟩ := uvarint_prefix _ _ h
  obtain ⟨e2, _⟩ := blocks_inj outWire 65 (fun a b => by
      intro ha hb e
      unfold outWire at e
      simp only [List.append_assoc] at e
      obtain ⟨e1, e⟩ := List.append_inj e (by simp [ha.1, hb.1])
      obtain ⟨e2, e⟩ := List.append_inj e (by simp)
      have e3 := List.reverse_injective e1
      have e4 := leBytes_inj (by simpa using ha.2.1) (by simpa using hb.2.1) e2
      simp only [List.cons_append, List.nil_append, List.cons.injEq, true_and] at e
      cases a; cases b
      simp only at e e3 e4
      subst e e3 e4
      rfl)
    (P := fun o : Out => o.asset.length = 32 ∧ o.amount < 2 ^ 64 ∧ o.hash.length = 20) (fun o ho => by simp [outWire, ho.1, ho.2.2]) hl
    ht.2 hu.2 h
  exact congrArg₂ Tx.mk e1 e2

example : Tx.Fits ⟨[(List.replicate 32 1, 65535)], [⟨List.replicate 32 9, 7, List.replicate 20 5⟩]⟩ := by
  constructor <;> simp

/-- C74, injectivity, for requests whose ids have 32 bytes: two requests with the same text pay the same amounts of the same assets to the
same addresses and spend the same outputs. Missing: ids of other lengths, where it fails (`C74_id_length_violated`). -/
theorem C74_injective_partial (H : Hashes) (vins vins' : List Vin) (vouts vouts' : List Vout) (text : Bytes) (hs hs' : List (Bytes × Bytes))
    (hi : vins.length < 2 ^ 56) (ho : vouts.length < 2 ^ 56) (hi' : vins'.length < 2 ^ 56) (ho' : vouts'.length < 2 ^ 56)
    (f : (∀ v ∈ vins, v.txid.length = 64) ∧ ∀ v ∈ vouts, v.asset.length = 64)
    (f' : (∀ v ∈ vins', v.txid.length = 64) ∧ ∀ v ∈ vouts', v.asset.length = 64)
    (h : createEmpty H vins vouts = .ok (text, hs)) (h' : createEmpty H vins' vouts' = .ok (text, hs')) :
    vins.map (fun v => (Hex.decode v.txid, v.vout)) = vins'.map (fun v => (Hex.decode v.txid, v.vout)) ∧
    vouts.map (fun v => (Hex.decode v.asset, v.amount, v.address)) = vouts'.map (fun v => (Hex.decode v.asset, v.amount, v.address)) := by
  obtain ⟨_, _, t, t1, t2, e⟩ := (C74_layout H vins vouts text hi ho).mp ⟨_, h⟩
  obtain ⟨_, _, u, u1, u2, e'⟩ := (C74_layout H vins' vouts' text hi' ho').mp ⟨_, h'⟩
  have fits : ∀ (vins : List Vin) (vouts : List Vout) (t : Tx), (∀ v ∈ vins, v.txid.length = 64) → (∀ v ∈ vouts, v.asset.length = 64) →
      List.Forall₂ InOf vins t.inputs → List.Forall₂ (OutOf H) vouts t.outputs → t.Fits := by
    intro vins vouts t f1 f2 t1 t2
    constructor
    · intro i hi
      obtain ⟨v, hv, h1, h2⟩ := forall₂_mem t1 i hi
      refine ⟨by have := Hex.decode_length _ _ h1; have := f1 v hv; omega, ?_⟩
      rw [h2]; exact v.vout.toNat_lt
    · intro o ho
      obtain ⟨v, hv, h1, h2, h3, _⟩ := forall₂_mem t2 o ho
      refine ⟨by have := Hex.decode_length _ _ h1; have := f2 v hv; omega, ?_, h3⟩
      rw [h2]; exact v.amount.toNat_lt
  have e := C74_wire_injective t u (fits vins vouts t f.1 f.2 t1 t2) (fits vins' vouts' u f'.1 f'.2 u1 u2) (Hex.encode_inj (e.symm.trans e'))
  subst e
  constructor
  · refine forall₂_map_eq t1 u1 ?_
    rintro v v' i ⟨h1, h2⟩ ⟨h3, h4⟩
    exact Prod.ext (h1.trans h3.symm) (UInt16.toNat_inj.mp (h2.symm.trans h4))
  · refine forall₂_map_eq t2 u2 ?_
    rintro v v' o ⟨h1, h2, _, h3⟩ ⟨h4, h5, _, h6⟩
    exact Prod.ext (h1.trans h4.symm) (Prod.ext (UInt64.toNat_inj.mp (h2.symm.trans h5)) (Filenet.isBase58_unique h3 h6))

/-- Where C74 fails: ids of any length are accepted. With `x` any 31 bytes and `y` any 32 bytes, the request spending output 0xff00+`a` of
a 31-byte id and output `n` of a 33-byte id has the same text, so the same hash, as one that spends two well-formed ids. -/
theorem C74_id_length_violated (H : Hashes) (x y : Bytes) (a : UInt8) (n : UInt16) (vouts : List Vout) (A B : Bytes) :
    createEmpty H [⟨Hex.encode x, 0xff00 + a.toUInt16, A⟩, ⟨Hex.encode (y ++ [0xff]), n, B⟩] vouts =
      createEmpty H [⟨Hex.encode (a :: x), 0xffff, A⟩, ⟨Hex.encode y, n, B⟩] vouts := by
  have dec : ∀ b : Bytes, Btc.reverseHexToBytes (Hex.encode b) = .ok b.reverse := fun b =>
    (BigBang.reverseHex_ok_iff _ _).mpr (by rw [Hex.decode_encode, List.reverse_reverse])
  have hw : leBytes 2 (0xff00 + a.toUInt16).toNat = [a, 0xff] := by
    revert a; apply Hex.u8_forall; decide +kernel
  unfold createEmpty newTx
  simp only [mapAll, newInput, dec, Res.bind_ok, hw]
  generalize mapAll (newOutput H) vouts = mo
  cases mo with
  | err => rfl
  | panic => rfl
  | ok outs =>
    simp only [Res.bind_ok, List.length_cons, List.length_nil]
    have e1 : ∀ r : Bytes, [x.reverse ++ [a, 0xff] ++ [0xff, 0xff, 0xff, 0xff], (y ++ [0xff]).reverse ++ r].flatten =
        [(a :: x).reverse ++ leBytes 2 (0xffff : UInt16).toNat ++ [0xff, 0xff, 0xff, 0xff], y.reverse ++ r].flatten := by
      intro r
      rw [show leBytes 2 (0xffff : UInt16).toNat = [0xff, 0xff] from by decide]
      simp
    simp only [List.append_assoc] at e1 ⊢
    simp only [e1, txHashes]

example : (createEmpty toyHashes [⟨Hex.encode (List.replicate 31 1), 0xff00 + (7 : UInt8).toUInt16, asc "a"⟩,
    ⟨Hex.encode (List.replicate 32 2 ++ [0xff]), 3, asc "b"⟩] [⟨Hex.encode (List.replicate 32 9), 7, demo⟩]).isOk = true := by decide +kernel

/-! ### C55 -/

/-- C55 for `elastosTransaction`, the part that holds: success is reported exactly when every signature in the list has 64 bytes, is
given with a 33-byte key and verifies under that key for the SHA-256 hash of the transaction; the signatures are put behind the transaction
in the order of the list. Missing: that the list is not empty and that its keys are those of the inputs (`C55_elastos_violated`). -/
theorem C55_elastos_partial (H : Hashes) (E : Btc.Curve) (text out : Bytes) (sps : List SigPub) (hl : sps.length < 2 ^ 56) :
    verifyAndCombine H E text sps = .ok (true, out) ↔ ∃ raw, Hex.decode text = .ok raw ∧
      (∀ s ∈ sps, s.pub.length = 33 ∧ s.sig.length = 64 ∧
        ∃ p0 p, E.decompress s.pub = p0 :: p ∧ E.verify p (H.hash .sha256 raw) s.sig = true) ∧
      out = Hex.encode (raw ++ uvarint sps.length ++ sps.flatMap fun s => sigWire s.pub s.sig) := by
  unfold verifyAndCombine
  constructor
  · intro h
    split at h
    · rename_i raw hr
      obtain ⟨v, hv, h⟩ := Res.bind_eq_ok.mp h
      split at h
      · rename_i hvt
        rw [hvt] at hv
        split at h
        · rename_i b hb
          cases h
          obtain ⟨h1, rfl⟩ := (sigpubs_iff _ _ hl).mp hb
          refine ⟨raw, hr, fun s hs => ⟨(h1 s hs).1, (h1 s hs).2, (verifyAll_iff ..).mp hv s hs⟩, by rw [List.append_assoc]⟩
        · cases h
        · cases h
      · cases h
    · cases h
    · cases h
  · rintro ⟨raw, hr, h, rfl⟩
    rw [hr]
    simp only
    rw [(verifyAll_iff E _ sps).mpr fun s hs => (h s hs).2.2, Res.bind_ok,
      (sigpubs_iff sps _ hl).mpr ⟨fun s hs => ⟨(h s hs).1, (h s hs).2.1⟩, rfl⟩, List.append_assoc]
    rfl

example : (verifyAndCombine toyHashes ⟨fun _ => [4, 1], fun _ _ _ => true⟩ (asc "00")
    [⟨List.replicate 33 2, List.replicate 64 3⟩] >>= fun r => Res.ok r.1) = .ok true := by decide +kernel

/-- Where C55 fails for `elastosTransaction`: every transaction, whatever it spends, combines successfully with no signature at all, and
with signatures by any keys whatsoever. -/
theorem C55_elastos_violated (H : Hashes) (E : Btc.Curve) (vins : List Vin) (vouts : List Vout) (text : Bytes) (hashes : List (Bytes × Bytes))
    (h : createEmpty H vins vouts = .ok (text, hashes)) :
    verifyAndCombine H E text [] = .ok (true, text ++ asc "00") ∧
    ∀ pub sig p0 p raw, Hex.decode text = .ok raw → pub.length = 33 → sig.length = 64 → E.decompress pub = p0 :: p →
      E.verify p (H.hash .sha256 raw) sig = true → ∃ out, verifyAndCombine H E text [⟨pub, sig⟩] = .ok (true, out) := by
  unfold createEmpty at h
  split at h
  · cases h
  obtain ⟨tx, _, h⟩ := Res.bind_eq_ok.mp h
  cases h
  constructor
  · refine (C55_elastos_partial H E _ _ [] (by simp)).mpr ⟨tx, Hex.decode_encode _, by simp, ?_⟩
    rw [show uvarint ([] : List SigPub).length = [0] from by rw [List.length_nil, uvarint]; rfl, List.flatMap_nil, List.append_nil, Hex.encode_append]
    rfl
  · intro pub sig p0 p raw hr h1 h2 h3 h4
    exact ⟨_, (C55_elastos_partial H E _ _ [⟨pub, sig⟩] (by simp)).mpr ⟨raw, hr, by
      intro s hs
      simp only [List.mem_cons, List.not_mem_nil, or_false] at hs
      subst hs
      exact ⟨h1, h2, p0, p, h3, h4⟩, rfl⟩⟩

/-- Failure mode: a key that cannot be decompressed stops the program (here: any list starting with such a key). -/
theorem C55_elastos_key_violated (H : Hashes) (E : Btc.Curve) (raw pub sig : Bytes) (rest : List SigPub) (h : E.decompress pub = []) :
    verifyAndCombine H E (Hex.encode raw) (⟨pub, sig⟩ :: rest) = .panic := by
  unfold verifyAndCombine verifyAll
  rw [Hex.decode_encode]
  simp only [h]
  rfl

end Verif
