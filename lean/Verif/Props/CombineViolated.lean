import Verif.Props.CombinePanicHc
import Verif.Props.Binance

/-! C142: where completing a transaction panics, and where not. Concrete cases for the theorems of `CombinePanic`, `CombinePanicUtxo` and
`CombinePanicHc`. -/

namespace Verif
open Verif.Spec Verif.Spec.Crash Verif.Spec.Combine Verif.Spec.Eip55

namespace CombinePanic

theorem hexText (b : Bytes) : HexText (Hex.encode b) b := (Eip.decode_iff _ _).mp (Hex.decode_encode b)

theorem firstBad_head {α} {good bad : α → Prop} {x : α} {l : List α} (h : bad x) : FirstBad good bad (x :: l) := firstBad_cons.mpr (.inl h)

theorem no_s (b : Bytes) : ∀ c ∈ Hex.encode b, c ≠ 0x73 := by
  induction b with
  | nil => simp [Hex.encode]
  | cons x xs ih =>
    have h1 : Hex.digit (x / 16) ≠ 0x73 ∧ Hex.digit (x % 16) ≠ 0x73 := by
      revert x; apply Hex.u8_forall; decide +kernel
    unfold Hex.encode
    exact List.forall_mem_cons.mpr ⟨h1.1, List.forall_mem_cons.mpr ⟨h1.2, ih⟩⟩

end CombinePanic
open CombinePanic

/-- Where C142 fails (a): a public key that is not a point of the curve panics in WaykiChain, Ripple, Elastos, Ontology and Metaverse, whatever the
signature is, instead of being refused. -/
theorem C142_key_violated (H : Hashes) (E : Btc.Curve) (b pub sig : Bytes) (hk : E.decompress pub = []) :
    Wayki.verifyAndCombine H E (Hex.encode (3 :: 1 :: b)) sig pub = .panic ∧
    Ripple.verifyAndCombine H E (Hex.encode b) (Hex.encode sig) (Hex.encode pub) = .panic ∧
    (∀ rest, rest.length + 1 < 2 ^ 56 → Elastos.verifyAndCombine H E (Hex.encode b) (⟨pub, sig⟩ :: rest) = .panic) ∧
    (∀ t rest, Ontology.decodeRawTransaction b = .ok t → Ontology.verifyAndCombine H E (Hex.encode b) (⟨sig, pub⟩ :: rest) = .panic) ∧
    (∀ x rest hash, pub.length = 33 → sig.length = 64 → hash.length = 32 → x.pubkey = Hex.encode pub → x.hash = Hex.encode hash →
      x.signature = Hex.encode sig → Mateverse.verifyAndCombine E (Hex.encode b) (x :: rest) = .panic) := by
  refine ⟨?_, ?_, ?_, ?_, ?_⟩
  · exact (C142_wayki ..).mpr ⟨_, hexText _, .inr ⟨3, .inr (.inl rfl), .inr ⟨b, rfl, .inl hk⟩⟩⟩
  · refine (C142_ripple ..).mpr ⟨b, ?_, pub, hexText _, sig, hexText _, .inl hk⟩
    rw [List.filter_eq_self.mpr (by simpa using no_s b)]
    exact hexText _
  · intro rest hl
    exact (C142_elastos _ _ _ _ (by simpa using hl)).mpr ⟨b, hexText _, firstBad_head hk⟩
  · intro t rest ht
    exact (C142_ontology ..).mpr ⟨b, hexText _, ⟨t, ht⟩, firstBad_head hk⟩
  · intro x rest hash h1 h2 h3 e1 e2 e3
    exact (C142_metaverse ..).mpr (.inl (firstBad_head ⟨pub, hash, sig, ⟨e1 ▸ hexText _, e2 ▸ hexText _, e3 ▸ hexText _, h1, h3, h2⟩, hk⟩))

/-- The same call with a key that is a point gives a verdict. -/
example : Wayki.verifyAndCombine toyHashes ⟨fun _ => [], fun _ _ _ => true⟩ (Hex.encode [3, 1, 9]) (List.replicate 64 1) (List.replicate 33 2) = .panic ∧
    (Wayki.verifyAndCombine toyHashes ⟨fun _ => [4, 1], fun _ _ _ => true⟩ (Hex.encode [3, 1, 9]) (List.replicate 64 1) (List.replicate 33 2)).isOk = true := by
  decide +kernel

example : Elastos.verifyAndCombine toyHashes ⟨fun p => if p = [2] then [] else [4, 1], fun _ _ _ => true⟩ (asc "00") [⟨[3], List.replicate 64 1⟩, ⟨[2], []⟩] = .panic ∧
    Elastos.verifyAndCombine toyHashes ⟨fun p => if p = [2] then [] else [4, 1], fun _ _ s => s ≠ []⟩ (asc "00") [⟨[3], []⟩, ⟨[2], []⟩] ≠ .panic := by
  decide +kernel

example : Ontology.verifyAndCombine toyHashes ⟨fun _ => [], fun _ _ _ => true⟩ (Hex.encode (Ontology.body Ontology.sampleTx ++ [0]))
    [⟨List.replicate 64 1, List.replicate 33 2⟩] = .panic := by decide +kernel

example : Ripple.verifyAndCombine toyHashes ⟨fun _ => [], fun _ _ _ => true⟩ (asc "12s00") (asc "00") (asc "02") = .panic ∧
    Ripple.verifyAndCombine toyHashes ⟨fun _ => [4, 1], fun _ _ _ => true⟩ (asc "12s00") (Hex.encode (List.replicate 32 0 ++ List.replicate 32 1)) (asc "02") = .panic ∧
    (Ripple.verifyAndCombine toyHashes ⟨fun _ => [4, 1], fun _ _ _ => true⟩ (asc "12s00") (Hex.encode (List.replicate 64 1)) (asc "02")) ≠ .panic := by
  decide +kernel

example : Mateverse.verifyAndCombine ⟨fun _ => [], fun _ _ _ => true⟩ (Hex.encode Mateverse.demo.empty)
    (Mateverse.demo.ins.map fun i => { Mateverse.inp i with hash := Hex.encode (List.replicate 32 9), signature := Hex.encode (List.replicate 64 3), pubkey := Hex.encode (List.replicate 33 2) }) = .panic ∧
    Mateverse.verifyAndCombine ⟨fun _ => [4, 1], fun _ _ _ => true⟩ (Hex.encode Mateverse.demo.empty)
    (Mateverse.demo.ins.map fun i => { Mateverse.inp i with hash := Hex.encode (List.replicate 32 9), signature := Hex.encode (List.replicate 32 3 ++ List.replicate 32 0), pubkey := Hex.encode (List.replicate 33 2) }) = .panic := by
  decide +kernel

/-- Where C142 fails (b): WaykiChain panics for the empty text and for a known type alone, whatever the key and the signature are. -/
theorem C142_wayki_short_violated (H : Hashes) (E : Btc.Curve) (sig pub : Bytes) :
    Wayki.verifyAndCombine H E [] sig pub = .panic ∧ Wayki.verifyAndCombine H E (asc "03") sig pub = .panic :=
  ⟨(C142_wayki ..).mpr ⟨[], hexText [], .inl rfl⟩, (C142_wayki ..).mpr ⟨[3], hexText [3], .inr ⟨3, .inr (.inl rfl), .inl rfl⟩⟩⟩

/-- Where C142 fails (c): Vollar writes the signatures before it has checked them. A transaction the package made itself, with two inputs, and two
signatures of which one is all zero, panics for every curve. -/
theorem C142_vollar_zero_violated : ∃ text : Bytes, (∃ hashes, Vollar.createEmpty toyHashes Verge.demoIns [⟨Vollar.demo, 5⟩, ⟨Vollar.demoScript, 6⟩] = .ok (text, hashes)) ∧
    ∀ (H : Hashes) (E : Btc.Curve) (s1 s2 : Verge.SigPub), (s1.sig = List.replicate 64 0 ∨ s2.sig = List.replicate 64 0) →
      Vollar.verifyAndCombine H E text [s1, s2] = .panic := by
  cases h : Vollar.createEmpty toyHashes Verge.demoIns [⟨Vollar.demo, 5⟩, ⟨Vollar.demoScript, 6⟩] with
  | err => exact absurd h (by decide +kernel)
  | panic => exact absurd h (by decide +kernel)
  | ok r =>
    refine ⟨r.1, ⟨r.2, rfl⟩, ?_⟩
    have key : (Vollar.createEmpty toyHashes Verge.demoIns [⟨Vollar.demo, 5⟩, ⟨Vollar.demoScript, 6⟩] >>= fun r => Vollar.decodeRaw r.1 >>= fun q =>
      Res.ok (decide (q.1.ins.length = 2) && q.2.all fun l => (Hex.decode l).isOk)) = .ok true := by decide +kernel
    rw [h, Res.bind_ok] at key
    obtain ⟨⟨t, locks⟩, hd, h2⟩ := Res.bind_eq_ok.mp key
    simp only [Res.ok.injEq, Bool.and_eq_true, decide_eq_true_eq, List.all_eq_true] at h2
    intro H E s1 s2 hz
    refine (C142_vollar ..).mpr ⟨t, locks, hd, h2.1.symm, ?_, ?_⟩
    · intro l hl
      have := h2.2 l hl
      cases hx : Hex.decode l with
      | ok b => exact ⟨b, (Eip.decode_iff _ _).mp hx⟩
      | err => rw [hx] at this; cases this
      | panic => rw [hx] at this; cases this
    · have hu : Unwritable (List.replicate 64 0) := .inr (.inl (by simp))
      rcases hz with h | h
      · exact ⟨s1, by simp, .inr (h ▸ hu)⟩
      · exact ⟨s2, by simp, .inr (h ▸ hu)⟩

/-- A wrong signature, not zero, is refused there. -/
example : (Vollar.createEmpty toyHashes Verge.demoIns [⟨Vollar.demo, 5⟩, ⟨Vollar.demoScript, 6⟩] >>=
    fun r => Vollar.verifyAndCombine toyHashes Verge.demoCurve r.1 (Verge.demoSigs 1 2) >>= fun r => Res.ok r.1) = .ok false := by decide +kernel

/-- Verge: with a right signature of which r is 1 and s is zero, and with a key that is not a point behind a right signature; a wrong signature before it
hides the key. -/
example : (Verge.createEmpty toyHashes 1000 Verge.demoIns [⟨Verge.demo, 5⟩, ⟨Verge.demoScript, 6⟩] 0 60 >>= fun r =>
      Verge.verifyAndCombine toyHashes Verge.demoCurve r.1 [⟨[2], 1 :: List.replicate 63 5⟩, ⟨[2], 1 :: List.replicate 63 0⟩]) = .panic ∧
    (Verge.createEmpty toyHashes 1000 Verge.demoIns [⟨Verge.demo, 5⟩, ⟨Verge.demoScript, 6⟩] 0 60 >>= fun r =>
      Verge.verifyAndCombine toyHashes ⟨fun p => if p = [2] then [4, 1] else [], fun _ _ s => s.head? == some 1⟩ r.1 [⟨[2], 1 :: List.replicate 63 5⟩, ⟨[3], []⟩]) = .panic ∧
    (Verge.createEmpty toyHashes 1000 Verge.demoIns [⟨Verge.demo, 5⟩, ⟨Verge.demoScript, 6⟩] 0 60 >>= fun r =>
      Verge.verifyAndCombine toyHashes ⟨fun p => if p = [2] then [4, 1] else [], fun _ _ s => s.head? == some 1⟩ r.1 [⟨[2], 2 :: List.replicate 63 5⟩, ⟨[3], []⟩]) = .err := by
  decide +kernel

/-- Aliencoin: r is 00 01 00 01 …, which is not zero. -/
example : (Alien.createEmpty toyHashes Verge.demoIns [⟨Alien.demo, 5⟩, ⟨Alien.demoScript, 6⟩] 0 >>=
    fun r => Alien.verifyAndCombine toyHashes ⟨fun _ => [4, 1], fun _ _ _ => true⟩ r.1
      [⟨[2], (List.replicate 16 [0, 1]).flatten ++ List.replicate 32 5⟩, ⟨[2], List.replicate 64 5⟩]) = .panic := by decide +kernel

/-- HyperCash: a key that is not a point behind a right signature; a text of two bytes. -/
example : (HyperCash.createEmpty toyHashes HyperCash.demoIns [⟨50, HyperCash.demo⟩] 0 0 >>= fun r =>
      HyperCash.verifyAndCombine toyHashes ⟨fun p => if p = [2] then [4, 1] else [], fun _ _ _ => true⟩ r.1
        [⟨List.replicate 64 3, [2]⟩, ⟨List.replicate 64 3, [3]⟩]) = .panic ∧
    HyperCash.verifyAndCombine toyHashes ⟨fun _ => [4, 1], fun _ _ _ => true⟩ (asc "0100:00/00") [⟨[], []⟩] = .panic := by
  decide +kernel

/-- Where C142 fails (d): Filenet, a text of 44 bytes that announces more payments than memory can hold. -/
theorem C142_filenet_count_violated (H : Hashes) (E : Btc.Curve) (mem : Nat) (a c b sig pub : Bytes) (ha : a.length = 20) (hc : c.length = 8)
    (hb : b.length = 16) (hm : mem < leNat c) : Filenet.verifyAndCombine H E mem (Hex.encode (a ++ c ++ b)) sig pub = .panic :=
  (C142_filenet ..).mpr ⟨_, hexText _, by simp [ha, hc, hb], .inl (by
    rw [List.append_assoc, List.drop_append_of_le_length (by omega), List.drop_of_length_le (by omega), List.nil_append,
      List.take_append_of_le_length (by omega), List.take_of_length_le (by omega)]
    exact hm)⟩

example : 2 ^ 45 < leNat [0, 0, 0, 0, 0, 0, 0, 1] := by decide

/-- Where C142 fails (e): MOAC panics for the empty text with a signature that is right for it. -/
theorem C142_moac_empty_violated (H : Hashes) (C : Moac.Curve) (s p : Bytes) (test : Bool) (hl : s.length = 65) (hv : s.drop 64 = [0])
    (hr : C.recover s (H.hash .keccak256 []) = some p) (hs : C.verify p (H.hash .keccak256 []) (s.take 64) = true) :
    Moac.verifyAndCombine H C [] (Hex.encode s) (Hex.encode (C.compress p)) test = .panic :=
  (C142_moac ..).mpr ⟨rfl, s, hexText _, hl, .inl hv, p, hr, rfl, hs⟩

example : Moac.verifyAndCombine toyHashes ⟨fun _ _ => some [1], fun _ => [2], fun _ _ _ => true⟩ [] (Hex.encode (List.replicate 65 0)) (asc "02") true = .panic ∧
    Moac.verifyAndCombine toyHashes ⟨fun _ _ => some [1], fun _ => [2], fun _ _ _ => true⟩ [] (Hex.encode (List.replicate 65 0)) (asc "03") true ≠ .panic := by
  decide +kernel

/-- C142, Binance Chain: the call panics exactly if the SDK reads the text as a document without messages, or as one whose first message it reads, the
signature is 64 bytes in hexadecimal, and the key is 33 bytes in hexadecimal that are not a point. -/
theorem C142_binance {M : Type} (S : Binance.Sdk M) (H : Hashes) (E : Btc.Curve) (text sig pub : Bytes) :
    Binance.verifyAndCombineRawTransaction S H E text sig pub = .panic ↔ ∃ doc, S.readDoc text = some doc ∧
      (doc.msgs = [] ∨ ∃ raw rest m s p, doc.msgs = raw :: rest ∧ S.readMsg raw = some m ∧ HexText sig s ∧ s.length = 64 ∧ HexText pub p ∧ p.length = 33 ∧
        E.decompress p = []) := by
  unfold Binance.verifyAndCombineRawTransaction
  cases hd : S.readDoc text with
  | none => simp
  | some doc =>
    simp only [Option.some.injEq, exists_eq_left']
    cases hm : doc.msgs with
    | nil => simp [index]
    | cons raw rest =>
      simp only [index, List.getElem?_cons_zero, Res.bind_ok, reduceCtorEq, false_or, List.cons.injEq]
      cases hr : S.readMsg raw with
      | none =>
        refine iff_of_false (by simp) ?_
        rintro ⟨_, _, _, _, _, ⟨rfl, rfl⟩, h, _⟩
        rw [hr] at h; cases h
      | some m =>
        dsimp only
        cases hs : Hex.decode sig with
        | panic => exact absurd hs (Hex.decode_ne_panic _)
        | err =>
          refine iff_of_false (by simp) ?_
          rintro ⟨_, _, _, _, _, _, _, h, _⟩
          rw [← Eip.decode_iff, hs] at h; cases h
        | ok s =>
          dsimp only
          by_cases hl : s.length = 64
          swap
          · rw [if_pos hl]
            refine iff_of_false (by simp) ?_
            rintro ⟨_, _, _, _, _, _, _, h, hl', _⟩
            rw [← Eip.decode_iff, hs] at h; cases h
            exact hl hl'
          rw [if_neg (by simpa using hl)]
          cases hp : Hex.decode pub with
          | panic => exact absurd hp (Hex.decode_ne_panic _)
          | err =>
            refine iff_of_false (by simp) ?_
            rintro ⟨_, _, _, _, _, _, _, _, _, h, _⟩
            rw [← Eip.decode_iff, hp] at h; cases h
          | ok p =>
            dsimp only
            by_cases hpl : p.length = 33
            swap
            · rw [if_pos hpl]
              refine iff_of_false (by simp) ?_
              rintro ⟨_, _, _, _, _, _, _, _, _, h, hl', _⟩
              rw [← Eip.decode_iff, hp] at h; cases h
              exact hpl hl'
            rw [if_neg (by simpa using hpl), tail_slice]
            by_cases hk : E.decompress p = []
            · rw [if_pos hk]
              exact iff_of_true rfl ⟨raw, rest, m, s, p, ⟨rfl, rfl⟩, hr, (Eip.decode_iff _ _).mp hs, hl, (Eip.decode_iff _ _).mp hp, hpl, hk⟩
            · rw [if_neg hk, Res.bind_ok]
              refine iff_of_false ?_ ?_
              · split
                · simp
                · split <;> simp
              · rintro ⟨_, _, _, _, _, _, _, _, _, h, _, h'⟩
                rw [← Eip.decode_iff, hp] at h; cases h
                exact hk h'

/-- A document without messages and one with a message; the SDK of the examples of C119. -/
example (E : Btc.Curve) (sig pub : Bytes) : Binance.verifyAndCombineRawTransaction Binance.toySdk toyHashes E (Binance.toySdk.signBytes (asc "x") 0 0 [] [] 0 []) sig pub = .panic :=
  (C119_panic_violated Binance.toySdk Binance.toySdk_faithful toyHashes E (asc "x") [] 0 0 0 (asc "m")).1 sig pub

end Verif
