import Verif.Lemmas.Frame
import Verif.Props.Verge

/-! Properties of Aliencoin transfers (C104, C105) and of the texts the combining functions of Verge, Aliencoin and Vollar accept (C103). -/

namespace Verif
open Verif.Spec Verif.Spec.Verge Verif.Spec.Alien

namespace Verge

theorem decodePrefix_get {rest : List Bytes} (k : Nat) (x l : Bytes) (h1 : rest[k]? = some x) (h2 : Hex.decode x = .ok l) :
    (rest.map Hex.decodePrefix)[k]? = some l := by
  rw [List.getElem?_map, h1, Option.map_some, Hex.decodePrefix_of_ok _ _ h2]

theorem forall₂_range {β : Type} {R : Nat → β → Prop} {n : Nat} {l : List β} (h : List.Forall₂ R (List.range n) l) (k : Nat) (b : β)
    (hk : l[k]? = some b) : R k b := by
  have hlen := h.length_eq
  obtain ⟨hk', rfl⟩ := List.getElem?_eq_some_iff.mp hk
  have := h.get (i := k) (by rw [hlen]; exact hk') hk'
  simpa using this

end Verge

/-! ### C103: nothing but the unlocking scripts changes -/

/-- C103 for Verge: whatever text combining accepts, it is the hexadecimal form of a transaction whose inputs have empty scripts, followed by one
lock script per input; the result is the same transaction with the unlocking scripts of the signatures, in order, and each signature is valid
for the hash of this transaction with the lock script in place of its input. -/
theorem C103_verge (H : Hashes) (E : Btc.Curve) (text out : Bytes) (sps : List Verge.SigPub) (hsp : ∀ s ∈ sps, s.sig.length = 64 ∧ s.pub.length = 33)
    (h : Verge.verifyAndCombine H E text sps = .ok out) :
    ∃ (f : Frame) (first : Bytes) (locks lks us : List Bytes), f.Ok 8 ∧
      text = first ++ locks.flatMap (fun l => asc ":" ++ l) ∧ Hex.decode first = .ok (f.fill (f.ins.map fun _ => [0])) ∧
      locks.length = f.ins.length ∧ (∀ l ∈ locks, (0x3a : UInt8) ∉ l) ∧
      lks.length = f.ins.length ∧ (∀ (k : Nat) x l, locks[k]? = some x → Hex.decode x = .ok l → lks[k]? = some l) ∧
      sps.length = f.ins.length ∧
      (∀ (k : Nat) sp, sps[k]? = some sp → ∃ p0 p, E.decompress sp.pub = p0 :: p ∧
        E.verify p (H.hash .doubleSha256 (f.fill (lks.mapIdx fun j l => if j = k then push l else [0]) ++ leBytes 4 1)) sp.sig = true) ∧
      List.Forall₂ (fun sp s => ∃ u, IsUnlock sp.sig sp.pub u ∧ s = varBytes u) sps us ∧ out = Hex.encode (f.fill us) := by
  unfold Verge.verifyAndCombine at h
  obtain ⟨⟨t, rest⟩, hd, h⟩ := Res.bind_eq_ok.mp h
  have hD := Verge.decodeRaw_inv text t rest hd
  simp only at h
  split at h
  · cases h
  rename_i hc
  have hlen : sps.length = t.ins.length := by
    by_contra hne
    exact hc (.inr hne)
  obtain ⟨is, hi, h⟩ := Res.bind_eq_ok.mp h
  obtain ⟨b, hb, h⟩ := Res.bind_eq_ok.mp h
  cases h
  have hm : t.getHash H = ((List.range t.ins.length).map fun k => H.hash .doubleSha256 (t.hashData k)).map Hex.encode := by
    rw [List.map_map]; rfl
  rw [hm] at hi
  obtain ⟨g1, rfl⟩ := (Verge.signLoop_iff E _ sps t.ins is (by simp) hlen).mp hi
  rw [List.forall₂_map_left_iff] at g1
  unfold Verge.TxStruct.toBytes at hb
  obtain ⟨bs, hbs, hb⟩ := Res.bind_eq_ok.mp hb
  simp only at hbs
  obtain ⟨us, g3, rfl⟩ := Verge.signed_inv (toB := Verge.TxIn.toBytes) (good := fun s => s.sig.length = 64 ∧ s.pub.length = 33)
    (Q := fun sp s => ∃ u, IsUnlock sp.sig sp.pub u ∧ s = varBytes u) (fun i sp s hg hs => by
      unfold Verge.TxIn.toBytes Verge.TxIn.scriptBytes at hs
      obtain ⟨r, hr, hs⟩ := Res.bind_eq_ok.mp hs
      cases hs
      obtain ⟨_, _, u, hu, rfl⟩ := (Verge.toBytes_iff sp r hg.1 hg.2).mp hr
      exact ⟨_, ⟨u, hu, rfl⟩, rfl⟩) t.ins sps bs hlen.symm hsp hbs
  obtain ⟨first, hf1, hf2⟩ := hD.split
  have hins : (Verge.frameOf t).ins.length = t.ins.length := List.length_map ..
  refine ⟨Verge.frameOf t, first, rest, rest.map Hex.decodePrefix, us, hD.frame, hf1, hf2, by rw [hins]; exact hD.count, hD.colon,
    by rw [hins, List.length_map]; exact hD.count, Verge.decodePrefix_get, by rw [hins]; exact hlen, ?_, g3, ?_⟩
  · intro k sp hk
    obtain ⟨p0, p, e1, e2⟩ := Verge.forall₂_range g1 k sp hk
    refine ⟨p0, p, e1, ?_⟩
    rw [← Verge.hashData_fill t _ hD.locks k]
    exact e2
  · cases hb
    rw [Verge.fill_eq]
    simp [hlen]

/-- C103 for Aliencoin; the scripts are those of the signatures if these are made of plain numbers (see C105). -/
theorem C103_aliencoin (H : Hashes) (E : Btc.Curve) (text out : Bytes) (sps : List Verge.SigPub)
    (h : Alien.verifyAndCombine H E text sps = .ok out) :
    ∃ (f : Frame) (first : Bytes) (locks lks us : List Bytes), f.Ok 4 ∧
      text = first ++ locks.flatMap (fun l => asc ":" ++ l) ∧ Hex.decode first = .ok (f.fill (f.ins.map fun _ => [0])) ∧
      locks.length = f.ins.length ∧ (∀ l ∈ locks, (0x3a : UInt8) ∉ l) ∧
      lks.length = f.ins.length ∧ (∀ (k : Nat) x l, locks[k]? = some x → Hex.decode x = .ok l → lks[k]? = some l) ∧
      sps.length = f.ins.length ∧
      (∀ (k : Nat) sp, sps[k]? = some sp → ∃ p0 p, E.decompress sp.pub = p0 :: p ∧
        E.verify p (H.hash .doubleSha256 (f.fill (lks.mapIdx fun j l => if j = k then push l else [0]) ++ leBytes 4 1)) sp.sig = true) ∧
      List.Forall₂ (fun sp s => sp.sig.length = 64 ∧ sp.pub.length = 33 ∧ Plain (sp.sig.take 32) ∧ Plain (sp.sig.drop 32) →
        ∃ u, IsUnlock sp.sig sp.pub u ∧ s = varBytes u) sps us ∧ out = Hex.encode (f.fill us) := by
  unfold Alien.verifyAndCombine at h
  obtain ⟨⟨t, rest⟩, hd, h⟩ := Res.bind_eq_ok.mp h
  obtain ⟨hD, htime⟩ := Alien.decodeRaw_inv text t rest hd
  simp only at h
  split at h
  · cases h
  rename_i hc
  have hlen : sps.length = t.ins.length := by
    by_contra hne
    exact hc (.inr hne)
  obtain ⟨is, hi, h⟩ := Res.bind_eq_ok.mp h
  obtain ⟨b, hb, h⟩ := Res.bind_eq_ok.mp h
  cases h
  have hm : Alien.getHash H t = ((List.range t.ins.length).map fun k => H.hash .doubleSha256 (Alien.hashData t k)).map Hex.encode := by
    rw [List.map_map]; rfl
  rw [hm] at hi
  obtain ⟨g1, rfl⟩ := (Verge.signLoop_iff E _ sps t.ins is (by simp) hlen).mp hi
  rw [List.forall₂_map_left_iff] at g1
  unfold Alien.toBytes at hb
  obtain ⟨bs, hbs, hb⟩ := Res.bind_eq_ok.mp hb
  simp only at hbs
  obtain ⟨us, g3, rfl⟩ := Verge.signed_inv (toB := Alien.inToBytes) (good := fun _ => True)
    (Q := fun sp s => sp.sig.length = 64 ∧ sp.pub.length = 33 ∧ Plain (sp.sig.take 32) ∧ Plain (sp.sig.drop 32) →
        ∃ u, IsUnlock sp.sig sp.pub u ∧ s = varBytes u) (fun i sp s _ hs => by
      unfold Alien.inToBytes at hs
      obtain ⟨r, hr, hs⟩ := Res.bind_eq_ok.mp hs
      cases hs
      exact ⟨r, fun hg => (Alien.sigPubBytes_iff sp r hg.1 hg.2.1 hg.2.2).mp hr, rfl⟩) t.ins sps bs hlen.symm (fun _ _ => trivial) hbs
  obtain ⟨first, hf1, hf2⟩ := hD.split
  have hins : (Verge.frameOf t).ins.length = t.ins.length := List.length_map ..
  refine ⟨Verge.frameOf t, first, rest, rest.map Hex.decodePrefix, us, hD.frame, hf1, hf2, by rw [hins]; exact hD.count, hD.colon,
    by rw [hins, List.length_map]; exact hD.count, Verge.decodePrefix_get, by rw [hins]; exact hlen, ?_, g3, ?_⟩
  · intro k sp hk
    obtain ⟨p0, p, e1, e2⟩ := Verge.forall₂_range g1 k sp hk
    refine ⟨p0, p, e1, ?_⟩
    rw [← Verge.hashData_fill t _ hD.locks k, htime, List.append_nil]
    exact e2
  · cases hb
    rw [Verge.fill_eq, htime]
    simp [hlen]

/-- C103 for Vollar: the result with the answer true. -/
theorem C103_vollar (H : Hashes) (E : Btc.Curve) (text out : Bytes) (sps : List Verge.SigPub) (hsp : ∀ s ∈ sps, s.sig.length = 64 ∧ s.pub.length = 33)
    (h : Vollar.verifyAndCombine H E text sps = .ok (true, out)) :
    ∃ (f : Frame) (body first : Bytes) (locks lks us : List Bytes), f.VOk body ∧
      text = first ++ locks.flatMap (fun l => asc ":" ++ l) ∧ Hex.decode first = .ok (f.fill (f.ins.map fun _ => [0])) ∧
      locks.length = f.ins.length ∧ (∀ l ∈ locks, (0x3a : UInt8) ∉ l) ∧ List.Forall₂ (fun x l => Hex.decode x = .ok l) locks lks ∧
      sps.length = f.ins.length ∧
      (∀ (k : Nat) sp i l, sps[k]? = some sp → f.ins[k]? = some i → lks[k]? = some l → ∃ p0 p, E.decompress sp.pub = p0 :: p ∧
        E.verify p (H.hash .doubleSha256 (f.vpreimage (H.hash .doubleSha256) body i l)) sp.sig = true) ∧
      List.Forall₂ (fun sp s => ∃ u, IsUnlock sp.sig sp.pub u ∧ s = varBytes u) sps us ∧
      out = Hex.encode (f.fill us ++ List.replicate (82 + f.ins.length) 0) := by
  unfold Vollar.verifyAndCombine at h
  obtain ⟨⟨t, rest⟩, hd, h⟩ := Res.bind_eq_ok.mp h
  have hD := Vollar.decodeRaw_inv text t rest hd
  simp only at h
  split at h
  · cases h
  rename_i hc
  rw [not_or, not_not, not_not] at hc
  obtain ⟨hlen, hrest⟩ := hc
  obtain ⟨is, hi, h⟩ := Res.bind_eq_ok.mp h
  obtain ⟨hashes, hh, h⟩ := Res.bind_eq_ok.mp h
  obtain ⟨⟨pass, js⟩, hj, h⟩ := Res.bind_eq_ok.mp h
  obtain ⟨b, hb, h⟩ := Res.bind_eq_ok.mp h
  cases h
  obtain ⟨lks, hlks, e2, e3⟩ := Vollar.setLocks_inv t.ins rest is hrest hi
  have hisl : is.length = t.ins.length := by simpa using congrArg List.length e3
  unfold Vollar.TxStruct.getHash at hh
  simp only at hh
  split at hh
  · cases hh
  cases hh
  generalize ht' : (⟨t.version, t.flag, is, t.outs⟩ : Vollar.TxStruct) = t' at hj
  have hm : is.map (fun i => Hex.encode (H.hash .doubleSha256 (t'.hashData H i))) =
      (is.map fun i => H.hash .doubleSha256 (t'.hashData H i)).map Hex.encode := by
    rw [List.map_map]; rfl
  rw [hm] at hj
  obtain ⟨_, g1, rfl⟩ := (Vollar.signLoop_iff E _ sps is js true (by simp) (by omega)).mp hj
  have g1 := g1.mp rfl
  unfold Vollar.TxStruct.toBytes at hb
  obtain ⟨bs, hbs, hb⟩ := Res.bind_eq_ok.mp hb
  simp only at hbs
  obtain ⟨us, g3, rfl⟩ := Verge.signed_inv (toB := Verge.TxIn.toBytes) (good := fun s => s.sig.length = 64 ∧ s.pub.length = 33)
    (Q := fun sp s => ∃ u, IsUnlock sp.sig sp.pub u ∧ s = varBytes u) (fun i sp s hg hs => by
      unfold Verge.TxIn.toBytes Verge.TxIn.scriptBytes at hs
      obtain ⟨r, hr, hs⟩ := Res.bind_eq_ok.mp hs
      cases hs
      obtain ⟨_, _, u, hu, rfl⟩ := (Verge.toBytes_iff sp r hg.1 hg.2).mp hr
      exact ⟨_, ⟨u, hu, rfl⟩, rfl⟩) is sps bs (by omega) hsp hbs
  obtain ⟨first, hf1, hf2⟩ := hD.split
  have hins : (Vollar.frameOf t).ins.length = t.ins.length := List.length_map ..
  refine ⟨Vollar.frameOf t, _, first, rest, lks, us, hD.frame, hf1, hf2, by rw [hins]; exact hD.count, hD.colon, hlks, by rw [hins]; exact hlen.symm,
    ?_, g3, ?_⟩
  · intro k sp i l hk1 hk2 hk3
    have hfi : (Vollar.frameOf t).ins = is.map fun i => (i.txid ++ i.vout, i.sequence) := e3.symm
    rw [hfi, List.getElem?_map, Option.map_eq_some_iff] at hk2
    obtain ⟨x, hx, rfl⟩ := hk2
    have hlock : x.lock = push l := by
      have := congrArg (fun L => L[k]?) e2
      simp only [List.getElem?_map, hx, hk3, Option.map_some, Option.some.injEq] at this
      exact this
    obtain ⟨hk, rfl⟩ := List.getElem?_eq_some_iff.mp hk1
    obtain ⟨hk', rfl⟩ := List.getElem?_eq_some_iff.mp hx
    have := g1.get (i := k) (by simpa using hk') hk
    simp only [List.get_eq_getElem, List.getElem_map] at this
    obtain ⟨p0, p, q1, q2⟩ := this
    refine ⟨p0, p, q1, ?_⟩
    have hpre : (Vollar.frameOf t).vpreimage (H.hash .doubleSha256) (t.outs.flatMap Vollar.TxOut.toBytes) (is[k].txid ++ is[k].vout, is[k].sequence) l =
        t'.hashData H is[k] := by
      unfold Frame.vpreimage Vollar.TxStruct.hashData
      rw [hfi, ← ht', hlock, List.flatMap_map, List.flatMap_map]
      simp only [List.append_assoc]
      rfl
    rw [hpre]
    exact q2
  · cases hb
    unfold Frame.fill Vollar.frameOf
    simp only
    rw [e3, List.length_map, List.length_zipWith, ← hlen, hisl, Nat.min_self]
    simp

/-! ### C104: layout and hashes -/

namespace Alien

theorem createEmpty_iff (H : Hashes) (ins : List Verge.Vin) (outs : List Verge.Vout) (lt : UInt32) (text : Bytes) (hashes : List Bytes)
    (hs : ∀ v ∈ outs, Verge.Std H [0x17] [0x30] v.address) :
    createEmpty H ins outs lt = .ok (text, hashes) ↔ ∃ t, TxOf H ins outs lt t ∧
      text = Hex.encode (rawBytes t) ++ ins.flatMap (fun v => 0x3a :: v.lock) ∧
      hashes = (List.range t.ins.length).map fun k => Hex.encode (H.hash .doubleSha256 (hashData (mTx t) k)) := by
  unfold createEmpty
  constructor
  · intro h
    obtain ⟨x, hx, h⟩ := Res.bind_eq_ok.mp h
    obtain ⟨t, ht, rfl⟩ := (newTxStruct_iff H ins outs lt x hs).mp hx
    rw [mTx_toBytes, Res.bind_ok, getHash_eq] at h
    cases h
    exact ⟨t, ht, rfl, rfl⟩
  · rintro ⟨t, ht, rfl, rfl⟩
    rw [(newTxStruct_iff H ins outs lt _ hs).mpr ⟨t, ht, rfl⟩, Res.bind_ok, mTx_toBytes, Res.bind_ok, getHash_eq]

end Alien

/-- C104: for every well-formed request the Aliencoin text is the chain's serialisation of the unsigned transaction, followed by the lock
scripts, and hash `k` is the chain's signature hash of input `k`. -/
theorem C104_aliencoin_layout (H : Hashes) (ins : List Verge.Vin) (outs : List Verge.Vout) (lockTime : UInt32)
    (hw : Verge.WellFormed H [0x17] [0x30] ins outs) :
    ∃ t : ATx, t.lockTime = lockTime.toNat ∧
      List.Forall₂ (fun v i => Hex.decode v.txid = .ok i.txid ∧ i.vout = v.vout.toNat ∧ Hex.decode v.lock = .ok i.lock) ins t.ins ∧
      List.Forall₂ (fun v o => o.amount = v.amount.toNat ∧ IsDest H Btc.alphabet [0x17] [0x30] v.address o.script) outs t.outs ∧
      Alien.createEmpty H ins outs lockTime =
        .ok (Hex.encode t.unsigned ++ ins.flatMap (fun v => asc ":" ++ v.lock),
          (List.range ins.length).map fun k => Hex.encode (H.hash .doubleSha256 (t.preimage k))) := by
  obtain ⟨is, hi⟩ := hw.ins
  obtain ⟨os, ho⟩ := hw.outs
  have hsm := hw.small hi ho
  refine ⟨⟨is, os, lockTime.toNat⟩, rfl, hi, ho, ?_⟩
  refine (Alien.createEmpty_iff H ins outs lockTime _ _ hw.output).mpr ⟨⟨is, os, lockTime.toNat⟩, ⟨hi, ho, rfl⟩, ?_, ?_⟩
  · rw [Alien.rawBytes_eq _ hsm, show asc ":" = [0x3a] from by decide]
    rfl
  · simp only [hi.length_eq, Alien.hashData_eq ⟨is, os, lockTime.toNat⟩ hsm]

/-- Creating fails for any address that is not the Base58Check text of one of the two prefixes: an error or (for short texts) a panic, never
another transaction. -/
theorem C104_aliencoin_refuses (H : Hashes) (ins : List Verge.Vin) (outs : List Verge.Vout) (lockTime : UInt32) (v : Verge.Vout) (hv : v ∈ outs)
    (hn : ∀ h, ¬ IsBase58Check H Btc.alphabet [0x17] h v.address ∧ ¬ IsBase58Check H Btc.alphabet [0x30] h v.address) (r : Bytes × List Bytes) :
    Alien.createEmpty H ins outs lockTime ≠ .ok r := by
  intro h
  unfold Alien.createEmpty Alien.newTxStruct at h
  obtain ⟨t, ht, _⟩ := Res.bind_eq_ok.mp h
  obtain ⟨i, _, ht⟩ := Res.bind_eq_ok.mp ht
  obtain ⟨o, ho, _⟩ := Res.bind_eq_ok.mp ht
  obtain ⟨x, _, hx⟩ := Elastos.forall₂_mem ((HyperCash.mapAll_iff _ _ _).mp ho).flip v hv
  unfold Alien.newTxOut at hx
  obtain ⟨⟨p, k⟩, hp, hx⟩ := Res.bind_eq_ok.mp hx
  have hb := (Verge.decodeCheck_iff H v.address p k).mp hp
  simp only at hx
  split at hx
  · rename_i e
    subst e
    exact (hn k).1 hb
  · split at hx
    · rename_i e
      subst e
      exact (hn k).2 hb
    · cases hx

/-! ### C105: combining -/

/-- C105, for signatures of which both numbers are plain (no leading zero byte, and some with leading zero bytes, see the specification). Combining succeeds exactly when there is one signature per returned hash and each verifies under its key; the result is the chain's
serialisation of the transaction with the unlocking scripts of these signatures, in order. Missing: the other signatures, all of which go wrong,
see `C105_other_violated` and `C105_panic_violated`. -/
theorem C105_combine_partial (H : Hashes) (E : Btc.Curve) (ins : List Verge.Vin) (outs : List Verge.Vout)
    (lockTime : UInt32) (hw : Verge.WellFormed H [0x17] [0x30] ins outs) (text : Bytes) (hashes : List Bytes)
    (h : Alien.createEmpty H ins outs lockTime = .ok (text, hashes)) (sps : List Verge.SigPub)
    (hsp : ∀ s ∈ sps, s.sig.length = 64 ∧ s.pub.length = 33 ∧ Plain (s.sig.take 32) ∧ Plain (s.sig.drop 32)) :
    ∃ t : ATx, t.lockTime = lockTime.toNat ∧
      List.Forall₂ (fun v i => Hex.decode v.txid = .ok i.txid ∧ i.vout = v.vout.toNat ∧ Hex.decode v.lock = .ok i.lock) ins t.ins ∧
      List.Forall₂ (fun v o => o.amount = v.amount.toNat ∧ IsDest H Btc.alphabet [0x17] [0x30] v.address o.script) outs t.outs ∧
      ∀ out, Alien.verifyAndCombine H E text sps = .ok out ↔
        List.Forall₂ (fun hash sp => ∃ m p0 p, Hex.decode hash = .ok m ∧ E.decompress sp.pub = p0 :: p ∧ E.verify p m sp.sig = true) hashes sps ∧
        ∃ us, List.Forall₂ (fun sp u => IsUnlock sp.sig sp.pub u) sps us ∧ out = Hex.encode (t.wire us) := by
  obtain ⟨t, ht, rfl, rfl⟩ := (Alien.createEmpty_iff H ins outs lockTime text hashes hw.output).mp h
  have hsm := hw.small ht.1 ht.2.1
  refine ⟨t, ht.2.2, ht.1, ht.2.1, fun out => ?_⟩
  have hne : t.ins ≠ [] := by
    intro e
    have := ht.1.length_eq
    rw [e] at this
    exact hw.some_input (List.length_eq_zero_iff.mp this)
  rw [Alien.verifyAndCombine_iff H E _ t _ (Alien.decodeRaw_ok H ins outs lockTime t ht hw.fits) hne hsm.1 hsm.2.1 hsm.2.2.2 sps
    out hsp, List.forall₂_map_left_iff, List.forall₂_map_left_iff]
  refine and_congr ⟨fun a => a.imp ?_, fun a => a.imp ?_⟩ Iff.rfl
  · rintro k sp ⟨p0, p, h1, h2⟩
    exact ⟨_, p0, p, Hex.decode_encode _, h1, h2⟩
  · rintro k sp ⟨m, p0, p, h0, h1, h2⟩
    rw [Hex.decode_encode] at h0
    cases h0
    exact ⟨p0, p, h1, h2⟩

namespace Alien

theorem strip_suffix : ∀ (n i : Nat) (r o : Bytes), strip n i r = .ok o → ∃ k, o = r.drop k
  | 0, _, r, o, h => by cases h; exact ⟨0, rfl⟩
  | n + 1, i, r, o, h => by
    unfold strip at h
    obtain ⟨c, _, h⟩ := Res.bind_eq_ok.mp h
    split at h
    · obtain ⟨k, rfl⟩ := strip_suffix n (i + 1) _ _ h
      exact ⟨1 + k, by rw [List.drop_drop]⟩
    · cases h; exact ⟨0, rfl⟩

end Alien

theorem Alien.derInt_length {R : Bytes} {x : Bytes} (h : IsDerInt R (beNat x)) (hx : x.length = 32) : R.length ≤ 33 := by
  by_contra hn
  match R, h with
  | [], _ => simp at hn
  | a :: t, h =>
    have hv := h.value
    have hlt := beNat_lt x
    rw [hx] at hlt
    have ht : 33 ≤ t.length := by simp at hn; omega
    by_cases ha : a = 0
    · match t, h with
      | [], _ => simp at ht
      | y :: t', h =>
        have hy := h.minimal y t' (by rw [ha])
        have h1 : 256 ^ t'.length ≤ beNat (y :: t') := by
          rw [beNat_cons]
          exact le_trans (Nat.le_mul_of_pos_left _ (by omega)) (Nat.le_add_right _ _)
        have h2 : beNat (a :: y :: t') = beNat (y :: t') := by rw [beNat_cons, ha]; simp
        have h3 : (256 : Nat) ^ 32 ≤ 256 ^ t'.length := Nat.pow_le_pow_right (by omega) (by simp at ht; omega)
        rw [h2] at hv
        omega
    · have h1 : 256 ^ t.length ≤ beNat (a :: t) := by
        rw [beNat_cons]
        have : 1 ≤ a.toNat := Nat.one_le_iff_ne_zero.mpr fun e => ha (UInt8.toNat_inj.mp e)
        exact le_trans (Nat.le_mul_of_pos_left _ this) (Nat.le_add_right _ _)
      have h3 : (256 : Nat) ^ 32 ≤ 256 ^ t.length := Nat.pow_le_pow_right (by omega) (by omega)
      omega

theorem Alien.derBody_length {x R : Bytes} (h : Alien.derBody x = .ok R) : R.length ≤ x.length + 1 := by
  unfold Alien.derBody at h
  obtain ⟨c, _, h⟩ := Res.bind_eq_ok.mp h
  split at h
  · cases h; simp
  · obtain ⟨k, rfl⟩ := Alien.strip_suffix _ _ _ _ h
    rw [List.length_drop]; omega

/-- Where C105 fails: exactly for the signatures that are not plain. If one of the numbers is not, the script written (if any) is not the one that
carries the signature: a number gets the sign of a negative number, has a superfluous zero byte or lacks its leading bytes. -/
theorem C105_other_violated (sp : Verge.SigPub) (h64 : sp.sig.length = 64) (h33 : sp.pub.length = 33) (e : Bytes)
    (h : Alien.sigPubBytes sp = .ok e) : (∃ u, IsUnlock sp.sig sp.pub u ∧ e = varBytes u) ↔ Plain (sp.sig.take 32) ∧ Plain (sp.sig.drop 32) := by
  constructor
  · rintro ⟨u, hu, he⟩
    unfold Alien.sigPubBytes at h
    rw [slice_ok (by omega) (by omega)] at h
    simp only [Res.bind_ok, List.drop_zero] at h
    obtain ⟨R, hR, h⟩ := Res.bind_eq_ok.mp h
    obtain ⟨S, hS, h⟩ := Res.bind_eq_ok.mp h
    obtain ⟨R', S', hR', hS', hu⟩ := hu
    have l1 := Alien.derInt_length hR' (by simp [h64])
    have l2 := Alien.derInt_length hS' (by simp [h64])
    have l3 := Alien.derBody_length hR
    have l4 := Alien.derBody_length hS
    rw [List.length_take, h64] at l3
    rw [List.length_drop, h64] at l4
    have hl : u.length < 253 := by rw [hu]; simp [push, derSig, h33]; omega
    rw [he, HyperCash.varBytes_short hl, hu] at h
    have h := Res.ok.inj h
    simp only [push, derSig, List.cons_append, List.nil_append, List.append_assoc] at h
    have h := (List.cons.inj h).2
    have h := (List.cons.inj h).2
    have h := (List.cons.inj h).2
    have h := (List.cons.inj h).2
    have h := (List.cons.inj h).2
    obtain ⟨hc, h⟩ := List.cons.inj h
    have hlen : R.length = R'.length := by
      have := congrArg UInt8.toNat hc
      rw [UInt8.toNat_ofNat', UInt8.toNat_ofNat'] at this
      omega
    obtain ⟨hRR, h⟩ := List.append_inj h hlen
    have h := (List.cons.inj h).2
    obtain ⟨hc, h⟩ := List.cons.inj h
    have hlen : S.length = S'.length := by
      have := congrArg UInt8.toNat hc
      rw [UInt8.toNat_ofNat', UInt8.toNat_ofNat'] at this
      omega
    have hSS := (List.append_inj h hlen).1
    rw [hRR] at hR
    rw [hSS] at hS
    exact ⟨Alien.plain_of_derBody _ _ (by simp [h64]) hR hR', Alien.plain_of_derBody _ _ (by simp [h64]) hS hS'⟩
  · intro hp
    exact (Alien.sigPubBytes_iff sp e h64 h33 hp).mp h

/-- Where C105 fails: the program panics exactly if one of the numbers has zero bytes in the places 0, 2, 4, …, 30; it never returns an error. -/
theorem C105_panic_violated (sp : Verge.SigPub) (h64 : sp.sig.length = 64) :
    (Alien.sigPubBytes sp = .panic ↔ EvenZero (sp.sig.take 32) ∨ EvenZero (sp.sig.drop 32)) ∧ Alien.sigPubBytes sp ≠ .err := by
  have hr := Alien.derBody_panic (sp.sig.take 32) (by simp [h64])
  have hs := Alien.derBody_panic (sp.sig.drop 32) (by simp [h64])
  unfold Alien.sigPubBytes
  rw [slice_ok (by omega) (by omega)]
  simp only [Res.bind_ok, List.drop_zero]
  cases h1 : Alien.derBody (sp.sig.take 32) with
  | err => exact absurd h1 (Alien.derBody_not_err _)
  | panic =>
    rw [h1] at hr
    exact ⟨⟨fun _ => Or.inl (hr.mp rfl), fun _ => rfl⟩, fun h => by cases h⟩
  | ok R =>
    rw [h1] at hr
    simp only [Res.bind_ok]
    cases h2 : Alien.derBody (sp.sig.drop 32) with
    | err => exact absurd h2 (Alien.derBody_not_err _)
    | panic =>
      rw [h2] at hs
      exact ⟨⟨fun _ => Or.inr (hs.mp rfl), fun _ => rfl⟩, fun h => by cases h⟩
    | ok S =>
      rw [h2] at hs
      refine ⟨⟨fun h => (by cases h), fun h => ?_⟩, fun h => by cases h⟩
      rcases h with h | h
      · cases hr.mpr h
      · cases hs.mpr h

-- such numbers need not be zero
example : ∃ sp : Verge.SigPub, sp.sig.length = 64 ∧ sp.pub.length = 33 ∧ beNat (sp.sig.take 32) ≠ 0 ∧ beNat (sp.sig.drop 32) ≠ 0 ∧
    EvenZero (sp.sig.take 32) ∧ Alien.sigPubBytes sp = .panic :=
  ⟨⟨List.replicate 33 2, (List.replicate 16 [(0 : UInt8), 7]).flatten ++ List.replicate 32 5⟩, by unfold EvenZero; decide +kernel⟩

/-! Requests and signatures to which the theorems apply. -/

def Alien.demo : Bytes := asc "AGbeZ1RJpDSTJFniN6mUK4kdRoCEiL6JYH"
def Alien.demoScript : Bytes := asc "LKxRHn2mWcADMceumyyK5r4MAiiY8FYm6n"

theorem Alien.demo_std : ∀ v ∈ [(⟨demo, 5⟩ : Verge.Vout), ⟨demoScript, 6⟩], ∃ k : Bytes, k.length = 20 ∧
    (IsBase58Check toyHashes Btc.alphabet [0x17] k v.address ∨ IsBase58Check toyHashes Btc.alphabet [0x30] k v.address) := by
  have h1 : Verge.decodeCheck toyHashes demo = .ok (0x17, List.replicate 20 9) := by decide +kernel
  have h2 : Verge.decodeCheck toyHashes demoScript = .ok (0x30, List.replicate 20 8) := by decide +kernel
  intro v hv
  rcases List.mem_cons.mp hv with rfl | hv
  · exact ⟨_, by simp, .inl ((Verge.decodeCheck_iff ..).mp h1)⟩
  · rw [List.mem_singleton] at hv
    subst hv
    exact ⟨_, by simp, .inr ((Verge.decodeCheck_iff ..).mp h2)⟩

theorem Alien.demo_wf : Verge.WellFormed toyHashes [0x17] [0x30] Verge.demoIns [⟨demo, 5⟩, ⟨demoScript, 6⟩] where
  some_input := Verge.demo_wf.some_input
  few_inputs := by decide
  few_outputs := by decide
  input := Verge.demo_wf.input
  output := demo_std

example : (Alien.createEmpty toyHashes Verge.demoIns [⟨Alien.demo, 5⟩, ⟨Alien.demoScript, 6⟩] 0 >>=
    fun r => Alien.verifyAndCombine toyHashes Verge.demoCurve r.1 (Verge.demoSigs 1 1) >>= fun _ => Res.ok true) = .ok true ∧
  (Alien.createEmpty toyHashes Verge.demoIns [⟨Alien.demo, 5⟩, ⟨Alien.demoScript, 6⟩] 0 >>=
    fun r => Alien.verifyAndCombine toyHashes Verge.demoCurve r.1 (Verge.demoSigs 1 2) >>= fun _ => Res.ok true) = .err := by decide +kernel

example : ∀ s ∈ Verge.demoSigs 1 1, Plain (s.sig.take 32) ∧ Plain (s.sig.drop 32) := by
  intro s hs
  rcases List.mem_cons.mp hs with rfl | hs
  · exact ⟨⟨0, by intro j hj; omega, ⟨1, rfl, by decide⟩, .inl rfl⟩, ⟨0, by intro j hj; omega, ⟨5, rfl, by decide⟩, .inl rfl⟩⟩
  · rw [List.mem_singleton] at hs
    subst hs
    exact ⟨⟨0, by intro j hj; omega, ⟨1, rfl, by decide⟩, .inl rfl⟩, ⟨0, by intro j hj; omega, ⟨7, rfl, by decide⟩, .inl rfl⟩⟩

-- numbers with leading zero bytes: one and two of them, written properly
example : Plain (0 :: 7 :: 1 :: List.replicate 29 5) ∧ Plain (0 :: 0 :: 0 :: 0x80 :: 1 :: List.replicate 27 5) :=
  ⟨⟨1, by decide +kernel, ⟨1, rfl, by decide⟩, .inr ⟨7, 1, _, rfl, by decide, by decide⟩⟩,
    ⟨2, by decide +kernel, ⟨1, rfl, by decide⟩, .inr ⟨0, 0x80, _, rfl, by decide, by decide⟩⟩⟩

/-- Numbers to which `C105_other_violated` applies and that are not plain, with the bytes written. -/
example : Alien.derBody (0 :: 0x80 :: 1 :: List.replicate 29 5) = .ok (0x80 :: 1 :: List.replicate 29 5) ∧
    Alien.derBody (0 :: 7 :: 0 :: List.replicate 29 5) = .ok (0 :: List.replicate 29 5) := by decide +kernel

end Verif
