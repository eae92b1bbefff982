import Verif.Lemmas.Vollar
import Verif.Props.BtcSig

/-! Properties of Verge and Vollar transfers: C54, C81, C82, C83 and the low-S rule (C77) for their signing functions. -/

namespace Verif
open Verif.Spec Verif.Spec.Verge

namespace Verge

/-- A request both packages can express on the wire of the chain: 1 to 252 inputs with hex ids of 32 bytes and hex scripts of less than 253
bytes, at most 252 outputs to Base58Check addresses of 20-byte hashes under one of the two prefixes. -/
structure WellFormed (H : Hashes) (keyPrefix scriptPrefix : Bytes) (ins : List Vin) (outs : List Vout) : Prop where
  some_input : ins ≠ []
  few_inputs : ins.length < 253
  few_outputs : outs.length < 253
  input : ∀ v ∈ ins, ∃ txid lock, Hex.decode v.txid = .ok txid ∧ txid.length = 32 ∧ Hex.decode v.lock = .ok lock ∧ lock.length < 253
  output : ∀ v ∈ outs, ∃ h : Bytes, h.length = 20 ∧
    (IsBase58Check H Btc.alphabet keyPrefix h v.address ∨ IsBase58Check H Btc.alphabet scriptPrefix h v.address)

theorem WellFormed.fits {H p q ins outs} (h : WellFormed H p q ins outs) : Fits ins outs := by
  refine ⟨h.some_input, ?_, ?_, ?_⟩
  · have := h.few_inputs; omega
  · have := h.few_outputs; omega
  · intro v hv
    obtain ⟨t, _, h1, h2, _⟩ := h.input v hv
    have := Hex.decode_length _ _ h1
    omega

theorem exists_forall₂ {α β : Type} {R : α → β → Prop} : ∀ (l : List α), (∀ a ∈ l, ∃ b, R a b) → ∃ m, List.Forall₂ R l m
  | [], _ => ⟨[], .nil⟩
  | a :: l, h => by
    obtain ⟨h1, h2⟩ := List.forall_mem_cons.mp h
    obtain ⟨b, hb⟩ := h1
    obtain ⟨m, hm⟩ := exists_forall₂ l h2
    exact ⟨b :: m, .cons hb hm⟩

theorem WellFormed.ins {H p q ins outs} (h : WellFormed H p q ins outs) : ∃ is, List.Forall₂ InOf ins is := by
  refine exists_forall₂ ins fun v hv => ?_
  obtain ⟨t, l, h1, _, h2, _⟩ := h.input v hv
  exact ⟨⟨t, v.vout.toNat, l⟩, h1, rfl, h2⟩

theorem WellFormed.outs {H p q ins outs} (h : WellFormed H p q ins outs) : ∃ os, List.Forall₂ (OutOf H p q) outs os := by
  refine exists_forall₂ outs fun v hv => ?_
  obtain ⟨k, hk, hb | hb⟩ := h.output v hv
  · exact ⟨⟨v.amount.toNat, p2pkhScript k⟩, rfl, k, hk, .inl ⟨hb, rfl⟩⟩
  · exact ⟨⟨v.amount.toNat, p2shScript k⟩, rfl, k, hk, .inr ⟨hb, rfl⟩⟩

theorem WellFormed.small {H p q ins outs} (h : WellFormed H p q ins outs) {is : List In} {os : List Out} (hi : List.Forall₂ InOf ins is)
    (ho : List.Forall₂ (OutOf H p q) outs os) : Small is os := by
  refine ⟨by rw [← hi.length_eq]; exact h.few_inputs, by rw [← ho.length_eq]; exact h.few_outputs, ?_, ?_⟩
  · intro i hm
    obtain ⟨v, hv, e⟩ := Elastos.forall₂_mem hi i hm
    obtain ⟨t, l, _, _, h2, h3⟩ := h.input v hv
    rw [e.2.2] at h2
    cases h2
    exact h3
  · intro o hm
    obtain ⟨v, _, _, e⟩ := Elastos.forall₂_mem ho o hm
    have := dest_length e
    omega

theorem inOf_unique : ∀ {vs : List Vin} {a b : List In}, List.Forall₂ InOf vs a → List.Forall₂ InOf vs b → a = b
  | _, _, _, .nil, .nil => rfl
  | _, _, _, .cons (b := i) x xs, .cons (b := j) y ys => by
    obtain ⟨x1, x2, x3⟩ := x
    obtain ⟨y1, y2, y3⟩ := y
    rw [inOf_unique xs ys]
    rw [x1] at y1
    rw [x3] at y3
    cases i; cases j
    simp_all

theorem inBytes_length (is : List In) : (is.flatMap inBytes).length = (List.zipWith inWire is (is.map fun _ => [])).flatten.length := by
  rw [zipWith_map_self]
  simp only [inWire_nil]
  rfl

theorem createEmpty_iff (H : Hashes) (now : UInt32) (ins : List Vin) (outs : List Vout) (lt iv : UInt32) (text : Bytes) (hashes : List Bytes)
    (hs : ∀ v ∈ outs, Std H [0x1e] [0x21] v.address) :
    createEmpty H now ins outs lt iv = .ok (text, hashes) ↔ ∃ t, TxOf H now ins outs lt iv t ∧
      text = Hex.encode (rawBytes t) ++ ins.flatMap (fun v => 0x3a :: v.lock) ∧
      hashes = (List.range t.ins.length).map fun k => Hex.encode (H.hash .doubleSha256 ((mTx t).hashData k)) := by
  unfold createEmpty
  constructor
  · intro h
    obtain ⟨x, hx, h⟩ := Res.bind_eq_ok.mp h
    obtain ⟨t, ht, rfl⟩ := (newTxStruct_iff H now ins outs iv lt x hs).mp hx
    rw [mTx_toBytes, Res.bind_ok, getHash_eq] at h
    cases h
    exact ⟨t, ht, rfl, rfl⟩
  · rintro ⟨t, ht, rfl, rfl⟩
    rw [(newTxStruct_iff H now ins outs iv lt _ hs).mpr ⟨t, ht, rfl⟩, Res.bind_ok, mTx_toBytes, Res.bind_ok, getHash_eq]

end Verge

namespace Vollar
open Verif.Verge (Vin Vout TxIn InOf mIn)

theorem createEmpty_iff (H : Hashes) (ins : List Vin) (outs : List Vout) (text : Bytes) (hashes : List Bytes) :
    createEmpty H ins outs = .ok (text, hashes) ↔ ins ≠ [] ∧ ∃ t, TxOf H ins outs t ∧
      text = Hex.encode (rawBytes t) ++ ins.flatMap (fun v => 0x3a :: v.lock) ∧
      hashes = t.ins.map fun i => Hex.encode (H.hash .doubleSha256 ((mTx t).hashData H (mIn i))) := by
  unfold createEmpty
  have hg : ∀ t : VTx, (mTx t).getHash H = if t.ins = [] then .err else
      .ok (t.ins.map fun i => Hex.encode (H.hash .doubleSha256 ((mTx t).hashData H (mIn i)))) := by
    intro t
    unfold TxStruct.getHash
    rw [show (mTx t).ins = t.ins.map mIn from rfl, List.length_map, List.map_map]
    simp only [List.length_eq_zero_iff]
    rfl
  have hz : ∀ {t : VTx}, TxOf H ins outs t → (t.ins = [] ↔ ins = []) := by
    intro t ht
    have := ht.1.length_eq
    rw [← List.length_eq_zero_iff, ← List.length_eq_zero_iff, this]
  constructor
  · intro h
    obtain ⟨x, hx, h⟩ := Res.bind_eq_ok.mp h
    obtain ⟨t, ht, rfl⟩ := (newTxStruct_iff H ins outs x).mp hx
    rw [hg] at h
    by_cases he : t.ins = []
    · rw [if_pos he] at h; cases h
    · rw [if_neg he, Res.bind_ok, mTx_toBytes, Res.bind_ok] at h
      cases h
      exact ⟨fun e => he ((hz ht).mpr e), t, ht, rfl, rfl⟩
  · rintro ⟨hne, t, ht, rfl, rfl⟩
    rw [(newTxStruct_iff H ins outs _).mpr ⟨t, ht, rfl⟩, Res.bind_ok, hg, if_neg (fun e => hne ((hz ht).mp e)), Res.bind_ok, mTx_toBytes,
      Res.bind_ok]

end Vollar

/-! ### C54: the text form -/

/-- C54 for Verge, for requests with ids of 32 bytes and addresses of 20-byte hashes: decoding the text of a created transaction gives back
its inputs, outputs, time, lock time and lock scripts, and the hashes computed from it are those returned for signing. Missing: the other
requests the package accepts, see `C54_verge_id_violated`, `C54_verge_empty_violated` and `C54_verge_address_violated`. -/
theorem C54_verge_partial (H : Hashes) (now : UInt32) (ins : List Verge.Vin) (outs : List Verge.Vout) (lockTime interval : UInt32)
    (text : Bytes) (hashes : List Bytes) (h : Verge.createEmpty H now ins outs lockTime interval = .ok (text, hashes))
    (h0 : ins ≠ []) (h1 : ins.length < 256) (h2 : outs.length < 256) (h3 : ∀ v ∈ ins, v.txid.length = 64)
    (h4 : ∀ v ∈ outs, ∃ k : Bytes, k.length = 20 ∧
      (IsBase58Check H Btc.alphabet [0x1e] k v.address ∨ IsBase58Check H Btc.alphabet [0x21] k v.address)) :
    ∃ t : Verge.TxStruct, Verge.decodeRaw text = .ok (t, ins.map (·.lock)) ∧ t.getHash H = hashes ∧
      List.Forall₂ (fun v i => Hex.decode v.txid = .ok i.txid.reverse ∧ i.vout = leBytes 4 v.vout.toNat ∧ i.sigPub = none ∧
        i.sequence = [0xff, 0xff, 0xff, 0xff] ∧ ∃ lock, Hex.decode v.lock = .ok lock ∧ i.lock = push lock) ins t.ins ∧
      List.Forall₂ (fun v o => o.amount = leBytes 8 v.amount.toNat ∧ ∃ script,
        IsDest H Btc.alphabet [0x1e] [0x21] v.address script ∧ o.script = push script) outs t.outs ∧
      t.version = leBytes 4 1 ∧ t.time = leBytes 4 (now + interval).toNat ∧ t.lockTime = leBytes 4 lockTime.toNat := by
  obtain ⟨t, ht, rfl, rfl⟩ := (Verge.createEmpty_iff H now ins outs lockTime interval text hashes h4).mp h
  refine ⟨Verge.mTx t, Verge.decodeRaw_ok H now ins outs lockTime interval t ht ⟨h0, h1, h2, h3⟩, Verge.getHash_eq H t, ?_, ?_, rfl, ?_, ?_⟩
  · refine (Elastos.forall₂_exists.mpr ⟨t.ins, ht.2.1, rfl⟩).imp ?_
    rintro v x ⟨i, hi, rfl⟩
    exact ⟨by simp only [Verge.mIn, List.reverse_reverse]; exact hi.1, by rw [← hi.2.1]; rfl, rfl, rfl, i.lock, hi.2.2, rfl⟩
  · refine (Elastos.forall₂_exists.mpr ⟨t.outs, ht.2.2.1, rfl⟩).imp ?_
    rintro v x ⟨o, ho, rfl⟩
    exact ⟨by rw [← ho.1]; rfl, o.script, ho.2, rfl⟩
  · rw [← ht.1]; rfl
  · rw [← ht.2.2.2]; rfl

/-- C54 for Vollar, for requests with ids of 32 bytes: decoding the text of a created transaction gives back its inputs, outputs and lock
scripts; the hashes recomputed after setting the lock scripts are those returned for signing. Missing: ids of other lengths, which are
accepted, see `C54_vollar_id_violated`. -/
theorem C54_vollar_partial (H : Hashes) (ins : List Verge.Vin) (outs : List Verge.Vout) (text : Bytes) (hashes : List Bytes)
    (h : Vollar.createEmpty H ins outs = .ok (text, hashes)) (h1 : ins.length < 256) (h2 : outs.length < 256)
    (h3 : ∀ v ∈ ins, v.txid.length = 64) :
    ∃ t : Vollar.TxStruct, Vollar.decodeRaw text = .ok (t, ins.map (·.lock)) ∧
      (∃ is, Vollar.setLocks t.ins (ins.map (·.lock)) = .ok is ∧ Vollar.TxStruct.getHash H ⟨t.version, t.flag, is, t.outs⟩ = .ok hashes ∧
        List.Forall₂ (fun v i => ∃ lock, Hex.decode v.lock = .ok lock ∧ i.lock = push lock) ins is) ∧
      List.Forall₂ (fun v i => Hex.decode v.txid = .ok i.txid.reverse ∧ i.vout = leBytes 4 v.vout.toNat ∧ i.sigPub = none ∧
        i.sequence = [0xff, 0xff, 0xff, 0xff]) ins t.ins ∧
      List.Forall₂ (fun v o => o.amount = leBytes 8 v.amount.toNat ∧ o.flag = 0 ∧ o.hashData = List.replicate 32 0 ∧ ∃ script,
        IsDest H Btc.alphabet [0x10, 0x1c] [0x10, 0x41] v.address script ∧ o.script = push script) outs t.outs ∧
      t.version = leBytes 4 1 ∧ t.flag = 0 := by
  have h' := h
  obtain ⟨hne, t, ht, rfl, rfl⟩ := (Vollar.createEmpty_iff H ins outs text hashes).mp h
  refine ⟨Vollar.bare t, Vollar.decodeRaw_ok H ins outs t ht ⟨hne, h1, h2, h3⟩, ⟨t.ins.map Verge.mIn, Vollar.setLocks_ok ht.1, ?_, ?_⟩, ?_, ?_,
    rfl, rfl⟩
  · rw [show (⟨(Vollar.bare t).version, (Vollar.bare t).flag, t.ins.map Verge.mIn, (Vollar.bare t).outs⟩ : Vollar.TxStruct) = Vollar.mTx t from rfl]
    unfold Vollar.TxStruct.getHash
    have : (Vollar.mTx t).ins.length ≠ 0 := by
      simp only [Vollar.mTx, List.length_map, ← ht.1.length_eq]
      simpa using hne
    rw [if_neg this, show (Vollar.mTx t).ins = t.ins.map Verge.mIn from rfl, List.map_map]
    rfl
  · refine (Elastos.forall₂_exists.mpr ⟨t.ins, ht.1, rfl⟩).imp ?_
    rintro v x ⟨i, hi, rfl⟩
    exact ⟨i.lock, hi.2.2, rfl⟩
  · refine (Elastos.forall₂_exists.mpr ⟨t.ins, ht.1, rfl⟩).imp ?_
    rintro v x ⟨i, hi, rfl⟩
    exact ⟨by simp only [Verge.mIn, List.reverse_reverse]; exact hi.1, by rw [← hi.2.1]; rfl, rfl, rfl⟩
  · refine (Elastos.forall₂_exists.mpr ⟨t.outs, ht.2, rfl⟩).imp ?_
    rintro v x ⟨o, ho, rfl⟩
    exact ⟨by rw [← ho.1]; rfl, rfl, rfl, o.script, ho.2, rfl⟩

/-- Addresses of both chains, for the toy hashes. -/
def Verge.demo : Bytes := asc "D5xsSmWKnUgb2HmKY36hhwf8qKzqh9bQde"
def Verge.demoScript : Bytes := asc "EHtNX9ZSruD567ZcQgyXoxyYj9rPTMUPm1"
def Vollar.demo : Bytes := asc "VcRgJXKopZ3mdAnZyjcjUyFywYWngGJaRHG"
def Vollar.demoScript : Bytes := asc "VsK6K5Pzjmc3u3M7DSXw9ZYZ6qVQJDLtmiP"

/-- A request with two inputs. -/
def Verge.demoIns : List Verge.Vin :=
  [⟨Hex.encode (List.replicate 32 1), 0, Hex.encode (p2pkhScript (List.replicate 20 6))⟩,
   ⟨Hex.encode (List.replicate 32 2), 3, Hex.encode (p2pkhScript (List.replicate 20 7))⟩]

theorem Verge.demo_std : ∀ v ∈ [(⟨demo, 5⟩ : Verge.Vout), ⟨demoScript, 6⟩], ∃ k : Bytes, k.length = 20 ∧
    (IsBase58Check toyHashes Btc.alphabet [0x1e] k v.address ∨ IsBase58Check toyHashes Btc.alphabet [0x21] k v.address) := by
  have h1 : Verge.decodeCheck toyHashes demo = .ok (0x1e, List.replicate 20 9) := by decide +kernel
  have h2 : Verge.decodeCheck toyHashes demoScript = .ok (0x21, List.replicate 20 8) := by decide +kernel
  intro v hv
  rcases List.mem_cons.mp hv with rfl | hv
  · exact ⟨_, by simp, .inl ((Verge.decodeCheck_iff ..).mp h1)⟩
  · rw [List.mem_singleton] at hv
    subst hv
    exact ⟨_, by simp, .inr ((Verge.decodeCheck_iff ..).mp h2)⟩

theorem Vollar.demo_std : ∀ v ∈ [(⟨demo, 5⟩ : Verge.Vout), ⟨demoScript, 6⟩], ∃ k : Bytes, k.length = 20 ∧
    (IsBase58Check toyHashes Btc.alphabet [0x10, 0x1c] k v.address ∨ IsBase58Check toyHashes Btc.alphabet [0x10, 0x41] k v.address) := by
  have h1 : Btc.decodeCheck toyHashes demo = .ok ([0x10, 0x1c], List.replicate 20 9) := by decide +kernel
  have h2 : Btc.decodeCheck toyHashes demoScript = .ok ([0x10, 0x41], List.replicate 20 8) := by decide +kernel
  intro v hv
  rcases List.mem_cons.mp hv with rfl | hv
  · exact ⟨_, by simp, .inl ((Btc.decodeCheck_iff ..).mp h1).2⟩
  · rw [List.mem_singleton] at hv
    subst hv
    exact ⟨_, by simp, .inr ((Btc.decodeCheck_iff ..).mp h2).2⟩

example : (Verge.createEmpty toyHashes 1000 Verge.demoIns [⟨Verge.demo, 5⟩, ⟨Verge.demoScript, 6⟩] 0 60).isOk = true ∧
    (∀ v ∈ Verge.demoIns, v.txid.length = 64) := by decide +kernel

example : (Vollar.createEmpty toyHashes Verge.demoIns [⟨Vollar.demo, 5⟩, ⟨Vollar.demoScript, 6⟩]).isOk = true := by decide +kernel

/-- Where C54 fails: ids of any length are accepted, and a text made from an empty id cannot be decoded. -/
theorem C54_verge_id_violated (H : Hashes) (now : UInt32) : ∃ text hashes, Verge.createEmpty H now [⟨[], 0, []⟩] [] 0 0 = .ok (text, hashes) ∧
    Verge.decodeRaw text = .err := by
  have hs : ∀ v ∈ ([] : List Verge.Vout), Verge.Std H [0x1e] [0x21] v.address := by simp
  refine ⟨_, _, (Verge.createEmpty_iff H now _ _ _ _ _ _ hs).mpr ⟨⟨(now + 0).toNat, [⟨[], 0, []⟩], [], 0⟩,
    ⟨rfl, .cons ⟨rfl, rfl, rfl⟩ .nil, .nil, rfl⟩, rfl, rfl⟩, ?_⟩
  unfold Verge.decodeRaw
  rw [Verge.split_locks _ _ (fun h => (HyperCash.hex_mem _ _ h).1 rfl) (by simp)]
  simp only [List.map_cons, List.map_nil, List.length_cons, List.length_nil]
  rw [if_neg (by decide), Hex.decode_encode, Res.bind_ok]
  unfold Verge.rawBytes
  simp only [List.append_assoc]
  rw [Btc.takeN_append (n := 4) [1, 0, 0, 0] _ rfl, Res.bind_ok]
  simp only
  rw [Btc.takeN_append _ _ (leBytes_length _ _), Res.bind_ok]
  rfl

/-- The same for Vollar. -/
theorem C54_vollar_id_violated (H : Hashes) : ∃ text hashes, Vollar.createEmpty H [⟨[], 0, []⟩] [] = .ok (text, hashes) ∧
    Vollar.decodeRaw text = .err := by
  refine ⟨_, _, (Vollar.createEmpty_iff H _ _ _ _).mpr ⟨by simp, ⟨[⟨[], 0, []⟩], []⟩, ⟨.cons ⟨rfl, rfl, rfl⟩ .nil, .nil⟩, rfl, rfl⟩, ?_⟩
  unfold Vollar.decodeRaw
  rw [Verge.split_locks _ _ (fun h => (HyperCash.hex_mem _ _ h).1 rfl) (by simp)]
  simp only [List.map_cons, List.map_nil, List.length_cons, List.length_nil]
  rw [if_neg (by decide), Hex.decode_encode, Res.bind_ok]
  rfl

/-- Whatever text the Verge decoder accepts, it names exactly one spent script for each input, and each script goes to its input. -/
theorem C54_verge_scripts (text : Bytes) (t : Verge.TxStruct) (locks : List Bytes) (h : Verge.decodeRaw text = .ok (t, locks)) :
    locks.length = t.ins.length ∧ locks ≠ [] := by
  unfold Verge.decodeRaw at h
  split at h
  · cases h
  split at h
  · cases h
  rename_i rest hr
  obtain ⟨_, _, h⟩ := Res.bind_eq_ok.mp h
  obtain ⟨_, _, h⟩ := Res.bind_eq_ok.mp h
  obtain ⟨_, _, h⟩ := Res.bind_eq_ok.mp h
  obtain ⟨_, _, h⟩ := Res.bind_eq_ok.mp h
  obtain ⟨⟨ins, b⟩, _, h⟩ := Res.bind_eq_ok.mp h
  obtain ⟨_, _, h⟩ := Res.bind_eq_ok.mp h
  obtain ⟨_, _, h⟩ := Res.bind_eq_ok.mp h
  obtain ⟨_, _, h⟩ := Res.bind_eq_ok.mp h
  simp only at h
  split at h
  · cases h
  split at h
  · cases h
  rename_i hl
  cases h
  refine ⟨?_, by rintro rfl; exact hr rfl⟩
  simp only [List.length_zipWith]
  omega

/-- The same for Vollar. -/
theorem C54_vollar_scripts (text : Bytes) (t : Vollar.TxStruct) (locks : List Bytes) (h : Vollar.decodeRaw text = .ok (t, locks)) :
    locks.length = t.ins.length ∧ locks ≠ [] := by
  unfold Vollar.decodeRaw at h
  split at h
  · cases h
  split at h
  · cases h
  rename_i rest hr
  obtain ⟨_, _, h⟩ := Res.bind_eq_ok.mp h
  obtain ⟨_, _, h⟩ := Res.bind_eq_ok.mp h
  obtain ⟨_, _, h⟩ := Res.bind_eq_ok.mp h
  obtain ⟨_, _, h⟩ := Res.bind_eq_ok.mp h
  obtain ⟨⟨ins, b⟩, _, h⟩ := Res.bind_eq_ok.mp h
  obtain ⟨_, _, h⟩ := Res.bind_eq_ok.mp h
  obtain ⟨_, _, h⟩ := Res.bind_eq_ok.mp h
  simp only at h
  split at h
  · cases h
  split at h
  · cases h
  rename_i hl
  cases h
  exact ⟨by simp only; omega, by rintro rfl; exact hr rfl⟩

-- texts that are accepted
example : (Verge.createEmpty toyHashes 1000 Verge.demoIns [⟨Verge.demo, 5⟩] 0 60 >>= fun r => Verge.decodeRaw r.1).isOk = true ∧
    (Vollar.createEmpty toyHashes Verge.demoIns [⟨Vollar.demo, 5⟩] >>= fun r => Vollar.decodeRaw r.1).isOk = true := by decide +kernel

/-- Where C54 fails: Verge transactions without inputs are created, but their text is always rejected. -/
theorem C54_verge_empty_violated (H : Hashes) (now : UInt32) (outs : List Verge.Vout) (lockTime interval : UInt32) (text : Bytes)
    (hashes : List Bytes) (h : Verge.createEmpty H now [] outs lockTime interval = .ok (text, hashes)) : Verge.decodeRaw text = .err := by
  unfold Verge.createEmpty at h
  obtain ⟨t, ht, h⟩ := Res.bind_eq_ok.mp h
  obtain ⟨b, hb, h⟩ := Res.bind_eq_ok.mp h
  cases h
  unfold Verge.decodeRaw
  rw [List.flatMap_nil, List.append_nil, OwKeychain.splitOn_none _ _ (fun h => (HyperCash.hex_mem _ _ h).1 rfl)]
  rfl

example : (Verge.createEmpty toyHashes 1000 [] [⟨Verge.demo, 5⟩] 0 60).isOk = true := by decide +kernel

/-- Where C54 fails: an address of the package whose payload is not 20 bytes long is accepted, but the text of a transaction
paying to it cannot be decoded, whatever its inputs. -/
theorem C54_verge_address_violated (H : Hashes) (now : UInt32) (ins : List Verge.Vin) (v : Verge.Vout) (lockTime interval : UInt32)
    (text : Bytes) (hashes : List Bytes) (p : UInt8) (k : Bytes)
    (h : Verge.createEmpty H now ins [v] lockTime interval = .ok (text, hashes))
    (h1 : ins.length < 256) (h3 : ∀ v ∈ ins, v.txid.length = 64)
    (ha : IsBase58Check H Btc.alphabet [p] k v.address) (hk : k.length ≠ 20) : Verge.decodeRaw text = .err := by
  by_cases h0 : ins = []
  · subst h0
    exact C54_verge_empty_violated H now [v] lockTime interval text hashes h
  unfold Verge.createEmpty at h
  obtain ⟨t, ht, h⟩ := Res.bind_eq_ok.mp h
  obtain ⟨b, hb, h⟩ := Res.bind_eq_ok.mp h
  cases h
  unfold Verge.newTxStruct at ht
  obtain ⟨xs, hx, ht⟩ := Res.bind_eq_ok.mp ht
  obtain ⟨is, hi, rfl⟩ := (Verge.newIns_iff ins xs).mp hx
  obtain ⟨os, ho, ht⟩ := Res.bind_eq_ok.mp ht
  cases ht
  obtain ⟨n, s, hn, rfl⟩ : ∃ (n : UInt8) (s : Bytes), s.length ≠ n.toNat ∧ os = [⟨leBytes 8 v.amount.toNat, n :: s⟩] := by
    unfold HyperCash.mapAll at ho
    obtain ⟨o, ho1, ho⟩ := Res.bind_eq_ok.mp ho
    obtain ⟨r, hr, ho⟩ := Res.bind_eq_ok.mp ho
    unfold HyperCash.mapAll at hr
    cases hr
    cases ho
    unfold Verge.newTxOut at ho1
    rw [(Verge.decodeCheck_iff H _ _ _).mpr ha, Res.bind_ok] at ho1
    simp only at ho1
    split at ho1
    · cases ho1
      exact ⟨0x19, [0x76, 0xa9, 0x14] ++ k ++ [0x88, 0xac], by simp; omega, rfl⟩
    · split at ho1
      · cases ho1
        exact ⟨0x17, [0xa9, 0x14] ++ k ++ [0x87], by simp; omega, rfl⟩
      · cases ho1
  unfold Verge.TxStruct.toBytes at hb
  simp only at hb
  rw [Verge.ins_toBytes, Res.bind_ok] at hb
  cases hb
  unfold Verge.decodeRaw
  rw [Verge.split_locks _ _ (fun h => (HyperCash.hex_mem _ _ h).1 rfl) (fun v hv => by
    obtain ⟨i, _, h⟩ := Elastos.forall₂_mem hi.flip v hv
    exact Verge.decode_no_colon _ _ h.2.2)]
  simp only
  rw [if_neg (by simpa using h0), Hex.decode_encode, Res.bind_ok]
  simp only [List.append_assoc, List.cons_append, List.length_map]
  rw [show (1 :: 0 :: 0 :: 0 :: ([] ++ (leBytes 4 (now + interval).toNat ++ UInt8.ofNat is.length :: ((is.map Verge.inBytes).flatten ++
      UInt8.ofNat [(⟨leBytes 8 v.amount.toNat, n :: s⟩ : Verge.TxOut)].length ::
        (List.flatMap Verge.TxOut.toBytes [⟨leBytes 8 v.amount.toNat, n :: s⟩] ++ leBytes 4 lockTime.toNat)))) : Bytes) =
      [1, 0, 0, 0] ++ (leBytes 4 (now + interval).toNat ++ UInt8.ofNat is.length :: (is.flatMap Verge.inBytes ++
        1 :: (leBytes 8 v.amount.toNat ++ n :: (s ++ leBytes 4 lockTime.toNat)))) from by
    simp [List.flatMap, Verge.TxOut.toBytes]]
  rw [Btc.takeN_append (n := 4) [1, 0, 0, 0] _ rfl, Res.bind_ok]
  simp only
  rw [Btc.takeN_append _ _ (leBytes_length _ _), Res.bind_ok]
  simp only [Btc.take1, Res.bind_ok]
  rw [show (UInt8.ofNat is.length).toNat = is.length from by
      rw [UInt8.toNat_ofNat']; have := hi.length_eq; omega,
    Verge.readMany_flat (k := fun i => ({ Verge.mIn i with lock := [] } : Verge.TxIn)) is
      (fun i hm r => Verge.readIn_ok i (Verge.txid_length hi h3 i hm) r), Res.bind_ok]
  simp only [Res.bind_ok]
  change Res.bind (Verge.readMany Verge.readOut 1 _) _ = _
  unfold Verge.readMany Verge.readOut
  rw [Btc.takeN_append _ _ (leBytes_length _ _), Res.bind_ok]
  simp only [Verge.readScript, Btc.take1, Res.bind_ok]
  generalize hl : leBytes 4 lockTime.toNat = lt
  have hlt : lt.length = 4 := by rw [← hl]; simp
  unfold Btc.takeN
  by_cases c1 : (s ++ lt).length < n.toNat
  · rw [if_pos c1]
    rfl
  · rw [if_neg c1]
    simp only [Res.bind_ok, Verge.readMany, Res.bind]
    by_cases c2 : ((s ++ lt).drop n.toNat).length < 4
    · rw [if_pos c2]
      rfl
    · rw [if_neg c2]
      simp only [Res.bind_ok]
      rw [if_pos]
      intro hd
      have := congrArg List.length hd
      simp only [List.length_drop, List.length_append, List.length_nil] at this c1 c2
      omega

-- such a request is accepted: a text of 21 bytes under the key prefix
example : (Verge.createEmpty toyHashes 1000 Verge.demoIns [⟨asc "vLubejSRujBjAgzcozGAfiFKaJrHWk5haf3", 5⟩] 0 60).isOk = true ∧
    (match Verge.decodeCheck toyHashes (asc "vLubejSRujBjAgzcozGAfiFKaJrHWk5haf3") with
      | .ok (p, k) => p == 0x1e && k.length == 21
      | _ => false) = true := by decide +kernel

/-! ### C81, C82: layout and hashes -/

/-- C81: for every well-formed request the Verge text is the chain's serialisation of the unsigned transaction, followed by the lock
scripts, and hash `k` is the chain's signature hash of input `k`. -/
theorem C81_verge_layout (H : Hashes) (now : UInt32) (ins : List Verge.Vin) (outs : List Verge.Vout) (lockTime interval : UInt32)
    (hw : Verge.WellFormed H [0x1e] [0x21] ins outs) :
    ∃ t : Tx, t.time = (now + interval).toNat ∧ t.lockTime = lockTime.toNat ∧
      List.Forall₂ (fun v i => Hex.decode v.txid = .ok i.txid ∧ i.vout = v.vout.toNat ∧ Hex.decode v.lock = .ok i.lock) ins t.ins ∧
      List.Forall₂ (fun v o => o.amount = v.amount.toNat ∧ IsDest H Btc.alphabet [0x1e] [0x21] v.address o.script) outs t.outs ∧
      Verge.createEmpty H now ins outs lockTime interval =
        .ok (Hex.encode t.unsigned ++ ins.flatMap (fun v => asc ":" ++ v.lock),
          (List.range ins.length).map fun k => Hex.encode (H.hash .doubleSha256 (t.preimage k))) := by
  obtain ⟨is, hi⟩ := hw.ins
  obtain ⟨os, ho⟩ := hw.outs
  have hsm := hw.small hi ho
  refine ⟨⟨(now + interval).toNat, is, os, lockTime.toNat⟩, rfl, rfl, hi, ho, ?_⟩
  refine (Verge.createEmpty_iff H now ins outs lockTime interval _ _ hw.output).mpr ⟨⟨(now + interval).toNat, is, os, lockTime.toNat⟩, ⟨rfl, hi, ho, rfl⟩, ?_, ?_⟩
  · rw [Verge.rawBytes_eq _ hsm, show asc ":" = [0x3a] from by decide]
    rfl
  · simp only [hi.length_eq, Verge.hashData_eq ⟨(now + interval).toNat, is, os, lockTime.toNat⟩ hsm]

/-- C82: for every well-formed request the Vollar text is the chain's serialisation of the unsigned transaction, followed by the lock
scripts, and the hashes are the chain's signature hashes of the inputs. -/
theorem C82_vollar_layout (H : Hashes) (ins : List Verge.Vin) (outs : List Verge.Vout)
    (hw : Verge.WellFormed H [0x10, 0x1c] [0x10, 0x41] ins outs) :
    ∃ t : VTx,
      List.Forall₂ (fun v i => Hex.decode v.txid = .ok i.txid ∧ i.vout = v.vout.toNat ∧ Hex.decode v.lock = .ok i.lock) ins t.ins ∧
      List.Forall₂ (fun v o => o.amount = v.amount.toNat ∧ IsDest H Btc.alphabet [0x10, 0x1c] [0x10, 0x41] v.address o.script) outs t.outs ∧
      Vollar.createEmpty H ins outs =
        .ok (Hex.encode t.unsigned ++ ins.flatMap (fun v => asc ":" ++ v.lock),
          t.ins.map fun i => Hex.encode (H.hash .doubleSha256 (t.preimage (H.hash .doubleSha256) i))) := by
  obtain ⟨is, hi⟩ := hw.ins
  obtain ⟨os, ho⟩ := hw.outs
  have hsm := hw.small hi ho
  refine ⟨⟨is, os⟩, hi, ho, ?_⟩
  refine (Vollar.createEmpty_iff H ins outs _ _).mpr ⟨hw.some_input, ⟨is, os⟩, ⟨hi, ho⟩, ?_, ?_⟩
  · rw [Vollar.rawBytes_eq _ hsm, show asc ":" = [0x3a] from by decide]
    rfl
  · refine List.map_congr_left fun i hm => ?_
    rw [Vollar.hashData_eq H _ hsm i hm]

theorem Verge.demo_wf : Verge.WellFormed toyHashes [0x1e] [0x21] demoIns [⟨demo, 5⟩, ⟨demoScript, 6⟩] where
  some_input := by simp [demoIns]
  few_inputs := by decide
  few_outputs := by decide
  input := by
    intro v hv
    rcases List.mem_cons.mp hv with rfl | hv
    · exact ⟨List.replicate 32 1, p2pkhScript (List.replicate 20 6), Hex.decode_encode _, by simp, Hex.decode_encode _, by decide⟩
    · rw [List.mem_singleton] at hv
      subst hv
      exact ⟨List.replicate 32 2, p2pkhScript (List.replicate 20 7), Hex.decode_encode _, by simp, Hex.decode_encode _, by decide⟩
  output := demo_std

theorem Vollar.demo_wf : Verge.WellFormed toyHashes [0x10, 0x1c] [0x10, 0x41] Verge.demoIns [⟨demo, 5⟩, ⟨demoScript, 6⟩] where
  some_input := Verge.demo_wf.some_input
  few_inputs := by decide
  few_outputs := by decide
  input := Verge.demo_wf.input
  output := demo_std

/-- Outside the well-formed requests: with 253 or more inputs the count is written in one byte, so the Verge text is not the serialisation of
the transaction (stated for requests without outputs). -/
theorem C81_limit_many (H : Hashes) (now : UInt32) (ins : List Verge.Vin) (lockTime interval : UInt32)
    (text : Bytes) (hashes : List Bytes) (h : Verge.createEmpty H now ins [] lockTime interval = .ok (text, hashes)) (hm : 253 ≤ ins.length)
    (t : Tx) (ht : List.Forall₂ (fun v i => Hex.decode v.txid = .ok i.txid ∧ i.vout = v.vout.toNat ∧ Hex.decode v.lock = .ok i.lock) ins t.ins)
    : text ≠ Hex.encode t.unsigned ++ ins.flatMap (fun v => asc ":" ++ v.lock) := by
  obtain ⟨t', ht', rfl, _⟩ := (Verge.createEmpty_iff H now ins [] lockTime interval text hashes (by simp)).mp h
  have e1 : t'.ins = t.ins := Verge.inOf_unique ht'.2.1 ht
  have e2 : t'.outs = [] := List.forall₂_nil_left_iff.mp ht'.2.2.1
  rw [show asc ":" = [0x3a] from by decide]
  intro e
  have e := congrArg List.length (List.append_cancel_right e)
  rw [Hex.encode_length, Hex.encode_length] at e
  have c1 := (Btc.compactSize_length t.ins.length).2 (by rw [← ht.length_eq]; exact hm)
  have hin : (t'.ins.flatMap Verge.inBytes).length = (List.zipWith inWire t.ins (t.ins.map fun _ => [])).flatten.length := by
    rw [e1]
    exact Verge.inBytes_length t.ins
  have c2 := (Btc.compactSize_length t.outs.length).1
  unfold Verge.rawBytes Tx.unsigned Tx.wire at e
  simp only [List.length_append, List.length_cons, List.length_nil, leBytes_length, e2, List.flatMap_nil] at e
  omega

/-- The same for Vollar. -/
theorem C82_limit_many (H : Hashes) (ins : List Verge.Vin) (text : Bytes) (hashes : List Bytes)
    (h : Vollar.createEmpty H ins [] = .ok (text, hashes)) (hm : 253 ≤ ins.length)
    (t : VTx) (ht : List.Forall₂ (fun v i => Hex.decode v.txid = .ok i.txid ∧ i.vout = v.vout.toNat ∧ Hex.decode v.lock = .ok i.lock) ins t.ins)
    : text ≠ Hex.encode t.unsigned ++ ins.flatMap (fun v => asc ":" ++ v.lock) := by
  obtain ⟨_, t', ht', rfl, _⟩ := (Vollar.createEmpty_iff H ins [] text hashes).mp h
  have e1 : t'.ins = t.ins := Verge.inOf_unique ht'.1 ht
  have e2 : t'.outs = [] := List.forall₂_nil_left_iff.mp ht'.2
  rw [show asc ":" = [0x3a] from by decide]
  intro e
  have e := congrArg List.length (List.append_cancel_right e)
  rw [Hex.encode_length, Hex.encode_length] at e
  have c1 := (Btc.compactSize_length t.ins.length).2 (by rw [← ht.length_eq]; exact hm)
  have hin : (t'.ins.flatMap Verge.inBytes).length = (List.zipWith inWire t.ins (t.ins.map fun _ => [])).flatten.length := by
    rw [e1]
    exact Verge.inBytes_length t.ins
  have c2 := (Btc.compactSize_length t.outs.length).1
  unfold Vollar.rawBytes VTx.unsigned VTx.body at e
  simp only [List.length_append, List.length_cons, List.length_nil, leBytes_length, e2, List.flatMap_nil] at e
  omega

/-- A request with 253 inputs that both packages accept. -/
example : (Verge.createEmpty toyHashes 1000 (List.replicate 253 ⟨Hex.encode (List.replicate 32 1), 0, []⟩) [] 0 60).isOk = true ∧
    (Vollar.createEmpty toyHashes (List.replicate 253 ⟨Hex.encode (List.replicate 32 1), 0, []⟩) []).isOk = true := by decide +kernel

/-- Outside the well-formed requests: a spent script of 253 or more bytes is hashed with a one-byte length, so what an input signs is not the
chain's preimage (stated for one input and no outputs). -/
theorem C81_limit_long_script (time lockTime : Nat) (i : In) (h : 253 ≤ i.lock.length) :
    (Verge.mTx ⟨time, [i], [], lockTime⟩).hashData 0 ≠ (⟨time, [i], [], lockTime⟩ : Tx).preimage 0 := by
  intro e
  have e := congrArg List.length e
  have c := (Btc.compactSize_length i.lock.length).2 h
  have c1 := Btc.compactSize_small (n := 1) (by decide)
  have c0 := Btc.compactSize_small (n := 0) (by decide)
  simp [Verge.TxStruct.hashData, Verge.mTx, Verge.mIn, Tx.preimage, Tx.wire, inWire, varBytes, push, leBytes_length, c1, c0] at e
  omega

example : 253 ≤ (⟨List.replicate 32 1, 0, List.replicate 300 0x51⟩ : In).lock.length := by decide +kernel

/-! ### C83: combining -/

/-- C83 for Verge: for every well-formed request and every list of 64-byte signatures with 33-byte keys, combining succeeds exactly when there
is one signature per returned hash, each verifies under its key, and none has a zero part; the result is the chain's serialisation of the
transaction with the unlocking scripts of these signatures, in order. -/
theorem C83_verge_combine (H : Hashes) (E : Btc.Curve) (now : UInt32) (ins : List Verge.Vin) (outs : List Verge.Vout)
    (lockTime interval : UInt32) (hw : Verge.WellFormed H [0x1e] [0x21] ins outs) (text : Bytes) (hashes : List Bytes)
    (h : Verge.createEmpty H now ins outs lockTime interval = .ok (text, hashes)) (sps : List Verge.SigPub)
    (hsp : ∀ s ∈ sps, s.sig.length = 64 ∧ s.pub.length = 33) :
    ∃ t : Tx, t.time = (now + interval).toNat ∧ t.lockTime = lockTime.toNat ∧
      List.Forall₂ (fun v i => Hex.decode v.txid = .ok i.txid ∧ i.vout = v.vout.toNat ∧ Hex.decode v.lock = .ok i.lock) ins t.ins ∧
      List.Forall₂ (fun v o => o.amount = v.amount.toNat ∧ IsDest H Btc.alphabet [0x1e] [0x21] v.address o.script) outs t.outs ∧
      ∀ out, Verge.verifyAndCombine H E text sps = .ok out ↔
        List.Forall₂ (fun hash sp => ∃ m p0 p, Hex.decode hash = .ok m ∧ E.decompress sp.pub = p0 :: p ∧ E.verify p m sp.sig = true) hashes sps ∧
        (∀ s ∈ sps, beNat (s.sig.take 32) ≠ 0 ∧ beNat (s.sig.drop 32) ≠ 0) ∧
        ∃ us, List.Forall₂ (fun sp u => IsUnlock sp.sig sp.pub u) sps us ∧ out = Hex.encode (t.wire us) := by
  obtain ⟨t, ht, rfl, rfl⟩ := (Verge.createEmpty_iff H now ins outs lockTime interval text hashes hw.output).mp h
  have hsm := hw.small ht.2.1 ht.2.2.1
  refine ⟨t, ht.1, ht.2.2.2, ht.2.1, ht.2.2.1, fun out => ?_⟩
  have hne : t.ins ≠ [] := by
    intro e
    have := ht.2.1.length_eq
    rw [e] at this
    exact hw.some_input (List.length_eq_zero_iff.mp this)
  rw [Verge.verifyAndCombine_iff H E _ t _ (Verge.decodeRaw_ok H now ins outs lockTime interval t ht hw.fits) hne hsm.1 hsm.2.1 hsm.2.2.2 sps
    out hsp, List.forall₂_map_left_iff, List.forall₂_map_left_iff]
  refine and_congr ⟨fun a => a.imp ?_, fun a => a.imp ?_⟩ Iff.rfl
  · rintro k sp ⟨p0, p, h1, h2⟩
    exact ⟨_, p0, p, Hex.decode_encode _, h1, h2⟩
  · rintro k sp ⟨m, p0, p, h0, h1, h2⟩
    rw [Hex.decode_encode] at h0
    cases h0
    exact ⟨p0, p, h1, h2⟩

/-- C83 for Vollar: the same, except that a signature that does not verify gives the combined transaction with the answer false instead of an
error; the answer is true exactly when every signature verifies for the hash of its input. -/
theorem C83_vollar_combine (H : Hashes) (E : Btc.Curve) (ins : List Verge.Vin) (outs : List Verge.Vout)
    (hw : Verge.WellFormed H [0x10, 0x1c] [0x10, 0x41] ins outs) (text : Bytes) (hashes : List Bytes)
    (h : Vollar.createEmpty H ins outs = .ok (text, hashes)) (sps : List Verge.SigPub) (hsp : ∀ s ∈ sps, s.sig.length = 64 ∧ s.pub.length = 33) :
    ∃ t : VTx,
      List.Forall₂ (fun v i => Hex.decode v.txid = .ok i.txid ∧ i.vout = v.vout.toNat ∧ Hex.decode v.lock = .ok i.lock) ins t.ins ∧
      List.Forall₂ (fun v o => o.amount = v.amount.toNat ∧ IsDest H Btc.alphabet [0x10, 0x1c] [0x10, 0x41] v.address o.script) outs t.outs ∧
      ∀ pass out, Vollar.verifyAndCombine H E text sps = .ok (pass, out) ↔
        sps.length = ins.length ∧ (∀ s ∈ sps, E.decompress s.pub ≠ []) ∧
        (pass = true ↔
          List.Forall₂ (fun hash sp => ∃ m p0 p, Hex.decode hash = .ok m ∧ E.decompress sp.pub = p0 :: p ∧ E.verify p m sp.sig = true)
            hashes sps) ∧
        (∀ s ∈ sps, beNat (s.sig.take 32) ≠ 0 ∧ beNat (s.sig.drop 32) ≠ 0) ∧
        ∃ us, List.Forall₂ (fun sp u => IsUnlock sp.sig sp.pub u) sps us ∧ out = Hex.encode (t.signed us) := by
  obtain ⟨hne, t, ht, rfl, rfl⟩ := (Vollar.createEmpty_iff H ins outs text hashes).mp h
  have hsm := hw.small ht.1 ht.2
  refine ⟨t, ht.1, ht.2, fun pass out => ?_⟩
  have hne : t.ins ≠ [] := by
    intro e
    have := ht.1.length_eq
    rw [e] at this
    exact hw.some_input (List.length_eq_zero_iff.mp this)
  rw [Vollar.verifyAndCombine_iff H E _ t ins ht.1 (Vollar.decodeRaw_ok H ins outs t ht hw.fits) hne hsm.1 hsm.2.1 hsm.2.2.2 sps pass
    out hsp, List.forall₂_map_left_iff, List.forall₂_map_left_iff, ht.1.length_eq]
  refine and_congr Iff.rfl (and_congr Iff.rfl (and_congr (iff_congr Iff.rfl ⟨fun a => a.imp ?_, fun a => a.imp ?_⟩) Iff.rfl))
  · rintro k sp ⟨p0, p, h1, h2⟩
    exact ⟨_, p0, p, Hex.decode_encode _, h1, h2⟩
  · rintro k sp ⟨m, p0, p, h0, h1, h2⟩
    rw [Hex.decode_encode] at h0
    cases h0
    exact ⟨p0, p, h1, h2⟩

/-- A curve that accepts the signatures with first byte 1. -/
def Verge.demoCurve : Btc.Curve := ⟨fun _ => [4, 1], fun _ _ s => s.head? == some 1⟩

def Verge.demoSigs (a b : UInt8) : List Verge.SigPub :=
  [⟨List.replicate 33 2, a :: List.replicate 63 5⟩, ⟨List.replicate 33 3, b :: List.replicate 63 7⟩]

example : (Verge.createEmpty toyHashes 1000 Verge.demoIns [⟨Verge.demo, 5⟩, ⟨Verge.demoScript, 6⟩] 0 60 >>=
    fun r => Verge.verifyAndCombine toyHashes Verge.demoCurve r.1 (Verge.demoSigs 1 1) >>= fun _ => Res.ok true) = .ok true ∧
  (Verge.createEmpty toyHashes 1000 Verge.demoIns [⟨Verge.demo, 5⟩, ⟨Verge.demoScript, 6⟩] 0 60 >>=
    fun r => Verge.verifyAndCombine toyHashes Verge.demoCurve r.1 (Verge.demoSigs 1 2) >>= fun _ => Res.ok true) = .err := by decide +kernel

example : (Vollar.createEmpty toyHashes Verge.demoIns [⟨Vollar.demo, 5⟩, ⟨Vollar.demoScript, 6⟩] >>=
    fun r => Vollar.verifyAndCombine toyHashes Verge.demoCurve r.1 (Verge.demoSigs 1 1) >>= fun r => Res.ok r.1) = .ok true ∧
  (Vollar.createEmpty toyHashes Verge.demoIns [⟨Vollar.demo, 5⟩, ⟨Vollar.demoScript, 6⟩] >>=
    fun r => Vollar.verifyAndCombine toyHashes Verge.demoCurve r.1 (Verge.demoSigs 1 2) >>= fun r => Res.ok r.1) = .ok false := by decide +kernel

/-! ### C84: signing -/

/-- C84: Verge and Vollar signing keep the signer's r and return the smaller of s and n - s, in 64 bytes unless n - s has two or more leading
zero bytes. Missing: those values, see `C84_low_s_violated`. -/
theorem C84_low_s_partial (sign : Bytes → Bytes → Option Bytes) (hashText hash key sig : Bytes) (hh : Hex.decode hashText = .ok hash)
    (hs : sign hash key = some sig) (hl : sig.length = 64) (ho : beNat (sig.drop 32) < Btc.curveOrder) :
    ∃ out, Verge.signTransaction sign hashText key = .ok out ∧ Vollar.signTransaction sign hashText key = .ok out ∧
      out.take 32 = sig.take 32 ∧ beNat (out.drop 32) = min (beNat (sig.drop 32)) (Btc.curveOrder - beNat (sig.drop 32)) ∧
      (2 ^ 240 ≤ Btc.curveOrder - beNat (sig.drop 32) → out.length = 64) := by
  have e : Verge.signTransaction sign hashText key = .ok (Btc.serilizeS sig) := by
    unfold Verge.signTransaction
    rw [hh, Res.bind_ok, hs]
  exact ⟨_, e, e, C26_low_s_partial sig hl ho⟩

/-- Where C84 fails: when n - s has two or more leading zero bytes the returned signature is shorter than 64 bytes. -/
theorem C84_low_s_violated (sign : Bytes → Bytes → Option Bytes) (hashText hash key sig : Bytes) (hh : Hex.decode hashText = .ok hash)
    (hs : sign hash key = some sig) (hl : sig.length = 64) (ho : beNat (sig.drop 32) < Btc.curveOrder)
    (hsmall : Btc.curveOrder - beNat (sig.drop 32) < 2 ^ 240) :
    ∃ out, Verge.signTransaction sign hashText key = .ok out ∧ Vollar.signTransaction sign hashText key = .ok out ∧ out.length < 64 := by
  have e : Verge.signTransaction sign hashText key = .ok (Btc.serilizeS sig) := by
    unfold Verge.signTransaction
    rw [hh, Res.bind_ok, hs]
  exact ⟨_, e, e, C26_width_violated sig hl ho hsmall⟩

/-- Signatures meeting the hypotheses of the two theorems. -/
example : (List.replicate 64 (5 : UInt8)).length = 64 ∧ beNat ((List.replicate 64 (5 : UInt8)).drop 32) < Btc.curveOrder ∧
    2 ^ 240 ≤ Btc.curveOrder - beNat ((List.replicate 64 (5 : UInt8)).drop 32) ∧
    beNat ((List.replicate 32 (5 : UInt8) ++ beBytes 32 (Btc.curveOrder - 7)).drop 32) < Btc.curveOrder ∧
    Btc.curveOrder - beNat ((List.replicate 32 (5 : UInt8) ++ beBytes 32 (Btc.curveOrder - 7)).drop 32) < 2 ^ 240 := by decide +kernel

end Verif
