import Verif.Props.Ontology

/-! The Ontology part of C55. -/

namespace Verif
open Verif.Ontology

/-- C55 for `ontologyTransaction`, the part that holds: success is reported only if every signature of the list verifies, under the key it
is given with, for the hash that `CreateRawTransactionAndHash` returns for this transaction (all texts, all lists). Missing: that the list is not empty and that
its keys are those of sender and payer (`C55_ontology_violated`). -/
theorem C55_ontology_partial (H : Hashes) (C : Btc.Curve) (text out : Bytes) (l : List SigPub)
    (h : verifyAndCombine H C text l = .ok (true, out)) : ∃ raw, Hex.decode text = .ok raw ∧ ∀ s ∈ l, ∃ p0 p,
      C.decompress s.publicKey = p0 :: p ∧ C.verify p (H.hash .sha256 (H.hash .doubleSha256 raw.dropLast)) s.signature = true := by
  unfold verifyAndCombine at h
  obtain ⟨raw, hr, h⟩ := Res.bind_eq_ok.mp h
  obtain ⟨t, _, h⟩ := Res.bind_eq_ok.mp h
  obtain ⟨v, hv, h⟩ := Res.bind_eq_ok.mp h
  split at h
  · cases h
  rename_i hvt
  have : v = true := by simpa using hvt
  rw [this] at hv
  refine ⟨raw, hr, fun s hs => ?_⟩
  obtain ⟨h1, h2⟩ := verifyAll_true hv s hs
  match hd : C.decompress s.publicKey, h1 with
  | p0 :: p, _ =>
    rw [hd] at h2
    refine ⟨p0, p, rfl, ?_⟩
    rw [List.dropLast_eq_take]
    exact h2

example : (verifyAndCombine toyHashes ⟨fun _ => [4], fun _ _ _ => true⟩
    (Hex.encode (body sampleTx ++ [0])) [⟨List.replicate 64 1, List.replicate 33 2⟩] >>= fun r => Res.ok r.1) = .ok true := by decide +kernel

/-- Where C55 fails for `ontologyTransaction`: every unsigned transaction, whoever has to sign it, combines successfully with no signature
at all; the result is the unsigned transaction. -/
theorem C55_ontology_violated (H : Hashes) (C : Btc.Curve) (t : Transaction) (h : Wf t) (hs : t.sigDatas = []) (hl : t.payload.length < 256) :
    ∃ b, toBytes t = .ok b ∧ verifyAndCombine H C (Hex.encode b) [] = .ok (true, Hex.encode b) := by
  obtain ⟨b, h1, h2, _⟩ := C39_combine_partial H C t [] h hs hl (by simp)
  exact ⟨_, h1, by simpa using h2 (by simp)⟩

example : Wf sampleTx ∧ sampleTx.sigDatas = [] ∧ sampleTx.payload.length < 256 :=
  ⟨⟨rfl, rfl, rfl, rfl, rfl, rfl, by decide, rfl⟩, rfl, by decide⟩

end Verif
