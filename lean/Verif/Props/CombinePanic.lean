import Verif.Props.CreatePanicOther
import Verif.Props.SignPanic
import Verif.Props.Filenet
import Verif.Props.OntologyCombine

/-! C142: verifying signatures and combining them with an unsigned transaction, and when these calls panic. This file: the packages with one list of
signatures or a single one. -/

namespace Verif
open Verif.Spec Verif.Spec.Crash Verif.Spec.Eip55

namespace CombinePanic
open CreatePanic

theorem strip_panic : ∀ (n : Nat) (r : Bytes), Btc.stripZeros n r = .panic ↔ r.length ≤ n ∧ 0 < n ∧ ∀ x ∈ r, x = 0
  | 0, r => by simp [Btc.stripZeros]
  | n + 1, [] => by simp [Btc.stripZeros]
  | n + 1, [x] => by
    simp only [Btc.stripZeros]
    by_cases h : x = 0 <;> simp [h]
  | n + 1, x :: y :: t => by
    simp only [Btc.stripZeros]
    by_cases h : x = 0 ∧ y < 0x80
    · rw [if_pos h, strip_panic n (y :: t)]
      simp only [List.length_cons, List.mem_cons, forall_eq_or_imp, h.1, true_and]
      constructor
      · rintro ⟨a, b, c⟩; exact ⟨by omega, by omega, c⟩
      · rintro ⟨a, b, c⟩; exact ⟨by omega, by omega, c⟩
    · rw [if_neg h]
      refine iff_of_false (by simp) ?_
      rintro ⟨_, _, h2⟩
      exact h ⟨h2 x (by simp), by rw [h2 y (by simp)]; decide⟩

theorem der_panic (r : Bytes) : Btc.derBody r = .panic ↔ r.length ≤ 32 ∧ ∀ x ∈ r, x = 0 := by
  cases r with
  | nil => simp [Btc.derBody]
  | cons x t =>
    simp only [Btc.derBody]
    by_cases h : x ≥ 0x80
    · rw [if_pos h]
      refine iff_of_false (by simp) ?_
      rintro ⟨_, h2⟩
      rw [h2 x (by simp)] at h
      exact absurd h (by decide)
    · rw [if_neg h, strip_panic]
      simp

theorem strip_ne_err : ∀ (n : Nat) (r : Bytes), Btc.stripZeros n r ≠ .err
  | 0, r => by simp [Btc.stripZeros]
  | n + 1, [] => by simp [Btc.stripZeros]
  | n + 1, [x] => by simp only [Btc.stripZeros]; split_ifs <;> simp
  | n + 1, x :: y :: t => by
    simp only [Btc.stripZeros]
    split_ifs
    · exact strip_ne_err n _
    · simp

theorem der_ne_err (r : Bytes) : Btc.derBody r ≠ .err := by
  cases r with
  | nil => simp [Btc.derBody]
  | cons x t =>
    simp only [Btc.derBody]
    split_ifs
    · simp
    · exact strip_ne_err _ _

/-- The two numbers are written one after the other; what is made of them does not matter. -/
theorem two_panic {ρ : Type} (sig : Bytes) (k : Bytes → Bytes → Res ρ) (hk : ∀ r s, k r s ≠ .panic) :
    (slice sig 0 32 >>= fun r => Btc.derBody r >>= fun r => Btc.derBody (sig.drop 32) >>= fun s => k r s) = .panic ↔ Unwritable sig := by
  unfold Unwritable
  by_cases hl : sig.length < 32
  · have : slice sig 0 32 = .panic := by unfold slice; rw [if_neg (by omega)]
    rw [this]
    exact iff_of_true rfl (.inl hl)
  · rw [slice_ok (by omega) (by omega), Res.bind_ok, List.drop_zero]
    have h1 := der_panic (sig.take 32)
    have h2 := der_panic (sig.drop 32)
    rw [List.length_take] at h1
    rw [List.length_drop] at h2
    have e1 := der_ne_err (sig.take 32)
    have e2 := der_ne_err (sig.drop 32)
    cases hr : Btc.derBody (sig.take 32) with
    | err => exact absurd hr e1
    | panic => exact iff_of_true rfl (.inr (.inl (h1.mp hr).2))
    | ok r =>
      rw [hr] at h1
      have h1 : ¬ ∀ x ∈ sig.take 32, x = 0 := fun h => by
        have := h1.mpr ⟨by omega, h⟩
        cases this
      rw [Res.bind_ok]
      cases hs : Btc.derBody (sig.drop 32) with
      | err => exact absurd hs e2
      | panic =>
        obtain ⟨a, b⟩ := h2.mp hs
        exact iff_of_true rfl (.inr (.inr ⟨by omega, b⟩))
      | ok s =>
        rw [hs] at h2
        refine iff_of_false (hk r s) ?_
        rintro (h | h | ⟨h, h'⟩)
        · exact hl h
        · exact h1 h
        · have := h2.mpr ⟨by omega, h'⟩
          cases this

theorem encodeSig_panic (sig : Bytes) (t : UInt8) : Btc.encodeSig sig t = .panic ↔ Unwritable sig :=
  two_panic sig _ (by intro r s; simp)

theorem waykiSig_panic (sig : Bytes) : Wayki.sigBytes sig = .panic ↔ Unwritable sig :=
  two_panic sig _ (by intro r s; simp)

theorem rippleSig_panic {sig : Bytes} (h : sig.length = 64) : Ripple.signatureBytes sig = .panic ↔ Unwritable sig := by
  rw [← two_panic sig (fun r s => Res.ok ([] : Bytes)) (by simp), slice_ok (by omega) (by omega)]
  unfold Ripple.signatureBytes
  rw [Res.bind_ok, List.drop_zero]
  cases Btc.derBody (sig.take 32) with
  | err => rfl
  | panic => rfl
  | ok r => cases Btc.derBody (sig.drop 32) <;> simp

/-- A text with a property of what it decodes to. -/
theorem hex_ok {t b : Bytes} (h : Hex.decode t = .ok b) {P : Bytes → Prop} : (∃ x, HexText t x ∧ P x) ↔ P b := by
  constructor
  · rintro ⟨x, h1, h2⟩
    rw [(Eip.decode_iff _ _).mpr h1] at h
    rw [← Res.ok.inj h]; exact h2
  · intro hp; exact ⟨b, (Eip.decode_iff _ _).mp h, hp⟩

theorem hex_err {t : Bytes} (h : Hex.decode t = .err) {P : Bytes → Prop} : ¬ ∃ x, HexText t x ∧ P x := by
  rintro ⟨x, h1, _⟩
  rw [(Eip.decode_iff _ _).mpr h1] at h; cases h

/-- A loop that stops at the first signature that is not right. -/
theorem verify_loop {α : Type} {L : List α → Res Bool} {bad good : α → Prop} (h0 : L [] = .ok true) (hb : ∀ x xs, bad x → L (x :: xs) = .panic)
    (hg : ∀ x xs, ¬ bad x → good x → L (x :: xs) = L xs) (hn : ∀ x xs, ¬ bad x → ¬ good x → L (x :: xs) = .ok false) :
    ∀ xs, (L xs = .panic ↔ FirstBad (fun x => ¬ bad x ∧ good x) bad xs)
  | [] => by
    rw [h0]
    refine iff_of_false (by simp) ?_
    rintro ⟨b, x, a, h, _⟩
    simp at h
  | x :: xs => by
    have ih := verify_loop h0 hb hg hn xs
    by_cases h1 : bad x
    · rw [hb x xs h1]; exact iff_of_true rfl ⟨[], x, xs, rfl, by simp, h1⟩
    · by_cases h2 : good x
      · rw [hg x xs h1 h2, ih]
        constructor
        · rintro ⟨b, y, a, h, h3, h4⟩
          exact ⟨x :: b, y, a, by rw [h]; rfl, by simpa using ⟨⟨h1, h2⟩, h3⟩, h4⟩
        · rintro ⟨b, y, a, h, h3, h4⟩
          match b, h, h3 with
          | [], h, _ =>
            simp only [List.nil_append, List.cons.injEq] at h
            rw [← h.1] at h4; exact absurd h4 h1
          | z :: b, h, h3 =>
            simp only [List.cons_append, List.cons.injEq] at h
            exact ⟨b, y, a, h.2, fun w hw => h3 w (by simp [hw]), h4⟩
      · rw [hn x xs h1 h2]
        refine iff_of_false (by simp) ?_
        rintro ⟨b, y, a, h, h3, h4⟩
        match b, h, h3 with
        | [], h, _ =>
          simp only [List.nil_append, List.cons.injEq] at h
          rw [← h.1] at h4; exact h1 h4
        | z :: b, h, h3 =>
          simp only [List.cons_append, List.cons.injEq] at h
          have := (h3 z (by simp)).2
          rw [← h.1] at this; exact h2 this

theorem tail_slice (b : Bytes) : slice b 1 b.length = if b = [] then .panic else .ok (b.drop 1) := by
  cases b with
  | nil => rfl
  | cons x t => simp [slice]

theorem encode58_ne_panic (b : Bytes) : Base58.encode Btc.alphabet b ≠ .panic := by
  obtain ⟨t, h, _⟩ := C01_base58_roundtrip Btc.alphabet Filenet.alphabet_ok b
  rw [h]; simp

end CombinePanic
open CombinePanic CreatePanic

/-- C142, WaykiChain: the call panics exactly for texts of less than two bytes (the empty one and the four types alone) and, for transactions of a
known type and version, for keys that are not a point and for accepted signatures of which a number is missing or zero. -/
theorem C142_wayki (H : Hashes) (C : Btc.Curve) (text sig pub : Bytes) :
    Wayki.verifyAndCombine H C text sig pub = .panic ↔ ∃ b, HexText text b ∧
      (b = [] ∨ ∃ ty, (ty = 2 ∨ ty = 3 ∨ ty = 4 ∨ ty = 11) ∧ (b = [ty] ∨ ∃ rest, b = ty :: 1 :: rest ∧
        (C.decompress pub = [] ∨
          C.verify ((C.decompress pub).drop 1) (H.hash .doubleSha256 (1 :: ty :: rest)) sig = true ∧ Unwritable sig))) := by
  unfold Wayki.verifyAndCombine Wayki.hashFromEmptyRaw
  cases hd : Hex.decode text with
  | panic => exact absurd hd (Hex.decode_ne_panic _)
  | err => exact iff_of_false (by simp) (hex_err hd)
  | ok b =>
    rw [hex_ok hd]
    match b with
    | [] => simp
    | [a] =>
      simp only
      by_cases ha : a ≠ 0x03 ∧ a ≠ 0x02 ∧ a ≠ 0x04 ∧ a ≠ 0x0B
      · rw [if_pos ha]
        refine iff_of_false (by simp) ?_
        rintro (h | ⟨ty, h, h' | ⟨r, h', _⟩⟩)
        · cases h
        · cases h'; obtain ⟨a1, a2, a3, a4⟩ := ha; rcases h with h | h | h | h <;> contradiction
        · cases h'
      · rw [if_neg ha]
        refine iff_of_true rfl (.inr ⟨a, ?_, .inl rfl⟩)
        by_contra hc
        exact ha ⟨fun h => hc (by simp [h]), fun h => hc (by simp [h]), fun h => hc (by simp [h]), fun h => hc (by simp [h])⟩
    | a :: v :: r =>
      simp only
      by_cases ha : (a ≠ 0x03 ∧ a ≠ 0x02 ∧ a ≠ 0x04 ∧ a ≠ 0x0B) ∨ v ≠ 0x01
      · rw [if_pos ha]
        refine iff_of_false (by simp) ?_
        rintro (h | ⟨ty, h, h' | ⟨r, h', _⟩⟩)
        · cases h
        · cases h'
        · cases h'
          rcases ha with ⟨a1, a2, a3, a4⟩ | ha
          · rcases h with h | h | h | h <;> contradiction
          · exact ha rfl
      · rw [if_neg ha]
        rw [not_or, not_not] at ha
        obtain ⟨ha, rfl⟩ := ha
        have hty : a = 2 ∨ a = 3 ∨ a = 4 ∨ a = 11 := by
          by_contra hc
          exact ha ⟨fun h => hc (by simp [h]), fun h => hc (by simp [h]), fun h => hc (by simp [h]), fun h => hc (by simp [h])⟩
        have key : (if C.decompress pub = [] then Res.panic
            else if C.verify ((C.decompress pub).drop 1) (H.hash .doubleSha256 (1 :: a :: r)) sig = false then Res.ok (false, [])
            else Wayki.sigBytes sig >>= fun s => Res.ok (true, text ++ Hex.encode s)) = .panic ↔
            (C.decompress pub = [] ∨
          C.verify ((C.decompress pub).drop 1) (H.hash .doubleSha256 (1 :: a :: r)) sig = true ∧ Unwritable sig) := by
          by_cases h1 : C.decompress pub = []
          · simp [h1]
          · rw [if_neg h1]
            cases hv : C.verify ((C.decompress pub).drop 1) (H.hash .doubleSha256 (1 :: a :: r)) sig with
            | false => simp [h1]
            | true =>
              simp only [Bool.true_eq_false, if_false, h1, true_and, false_or]
              rw [DecPanic.bind_panic _ _ (by intro a; simp), waykiSig_panic]
        refine key.trans ?_
        constructor
        · intro h; exact .inr ⟨a, hty, .inr ⟨r, rfl, h⟩⟩
        · rintro (h | ⟨ty, _, h' | ⟨r', h', h⟩⟩)
          · cases h
          · cases h'
          · cases h'; exact h

/-- C142, Ripple: the call panics exactly if the text without the letters s, the key and the signature are all hexadecimal and the key is not a point, or
the signature is accepted, has 64 bytes, and one of its numbers is zero. -/
theorem C142_ripple (H : Hashes) (C : Btc.Curve) (text sig pub : Bytes) :
    Ripple.verifyAndCombine H C text sig pub = .panic ↔
      ∃ b, HexText (text.filter (· ≠ 0x73)) b ∧ ∃ p, HexText pub p ∧ ∃ s, HexText sig s ∧
        (C.decompress p = [] ∨
          C.verify ((C.decompress p).drop 1) ((H.hash .sha512 ([0x53, 0x54, 0x58, 0x00] ++ b)).take 32) s = true ∧ s.length = 64 ∧ Unwritable s) := by
  have hrep : Ripple.replaceS text [] = text.filter (· ≠ 0x73) := by
    unfold Ripple.replaceS
    induction text with
    | nil => rfl
    | cons c t ih =>
      rw [List.flatMap_cons, ih]
      by_cases h : c = 0x73 <;> simp [h]
  have hpre : Ripple.signPrefix = [0x53, 0x54, 0x58, 0x00] := rfl
  unfold Ripple.verifyAndCombine Ripple.hashFromEmptyRaw
  rw [hrep, hpre]
  cases h1 : Hex.decode (text.filter (· ≠ 0x73)) with
  | panic => exact absurd h1 (Hex.decode_ne_panic _)
  | err => exact iff_of_false (by simp) (hex_err h1)
  | ok b =>
    rw [hex_ok h1]
    simp only [Res.bind_ok]
    cases h2 : Hex.decode pub with
    | panic => exact absurd h2 (Hex.decode_ne_panic _)
    | err => exact iff_of_false (by simp) (hex_err h2)
    | ok p =>
      rw [hex_ok h2]
      simp only
      cases h3 : Hex.decode sig with
      | panic => exact absurd h3 (Hex.decode_ne_panic _)
      | err => exact iff_of_false (by simp) (hex_err h3)
      | ok s =>
        rw [hex_ok h3]
        simp only
        by_cases hk : C.decompress p = []
        · simp [hk]
        · rw [if_neg hk]
          cases hv : C.verify ((C.decompress p).drop 1) ((H.hash .sha512 ([0x53, 0x54, 0x58, 0x00] ++ b)).take 32) s with
          | false => simp [hk]
          | true =>
            simp only [Bool.true_eq_false, if_false, hk, true_and, false_or]
            have ht : Ripple.txnSignatureBytes sig = .panic ↔ s.length = 64 ∧ Unwritable s := by
              unfold Ripple.txnSignatureBytes
              rw [h3]
              simp only
              by_cases hl : s.length = 64
              · rw [if_neg (by simpa using hl), DecPanic.bind_panic _ _ (by intro a; simp), rippleSig_panic hl]
                simp [hl]
              · rw [if_pos hl]
                simp [hl]
            rw [← ht]
            cases Ripple.txnSignatureBytes sig <;> simp

/-- C142, MOAC: the call panics exactly for the empty transaction text with a signature of 65 bytes that is right for it and for the key. -/
theorem C142_moac (H : Hashes) (C : Moac.Curve) (text sig pub : Bytes) (test : Bool) :
    Moac.verifyAndCombine H C text sig pub test = .panic ↔
      text = [] ∧ ∃ s, HexText sig s ∧ s.length = 65 ∧ (s.drop 64 = [0] ∨ s.drop 64 = [1]) ∧
        ∃ p, C.recover s (H.hash .keccak256 []) = some p ∧ Moac.toLower (Hex.encode (C.compress p)) = Moac.toLower pub ∧
          C.verify p (H.hash .keccak256 []) (s.take 64) = true := by
  have hitem : ∀ b, Moac.decodeItem b ≠ .panic := by
    intro b
    unfold Moac.decodeItem
    cases b with
    | nil => simp
    | cons x t => simp only; split_ifs <;> simp
  have hnonce : ∀ b, Moac.decodeNonce b ≠ .panic := by
    intro b
    unfold Moac.decodeNonce
    cases b with
    | nil => simp
    | cons x t => simp only; split_ifs <;> simp
  have hdec : ∀ b, Moac.decodeEmpty b ≠ .panic := by
    intro b
    unfold Moac.decodeEmpty
    refine bind_ne (hnonce _) fun a => ?_
    iterate 8 refine bind_ne (hitem _) fun a => ?_
    refine bind_ne (Btc.takeN_ne_panic _ _) fun a => ?_
    simp only
    split_ifs <;> simp
  have htext : ∀ b, Hex.decode text = .ok b → (b = [] ↔ text = []) := by
    intro b h
    have := ((Eip.decode_iff _ _).mp h).1
    rw [← List.length_eq_zero_iff, ← List.length_eq_zero_iff (l := text)]
    omega
  unfold Moac.verifyAndCombine
  cases h1 : Hex.decode text with
  | panic => exact absurd h1 (Hex.decode_ne_panic _)
  | err =>
    refine iff_of_false (by simp) ?_
    rintro ⟨rfl, _⟩
    cases h1
  | ok b =>
    have hb := htext b h1
    cases h2 : Hex.decode sig with
    | panic => exact absurd h2 (Hex.decode_ne_panic _)
    | err =>
      refine iff_of_false (by simp) ?_
      rintro ⟨_, h⟩
      exact hex_err h2 h
    | ok s =>
      rw [hex_ok h2, ← hb]
      simp only
      by_cases hs : s.length ≠ 65 ∨ (s.drop 64 ≠ [0x01] ∧ s.drop 64 ≠ [0x00])
      · rw [if_pos hs]
        refine iff_of_false (by simp) ?_
        rintro ⟨_, hl, h, _⟩
        rcases hs with hs | ⟨h3, h4⟩
        · exact hs hl
        · rcases h with h | h <;> contradiction
      · rw [if_neg hs]
        rw [not_or, not_not, not_and_or, not_not, not_not] at hs
        cases hr : C.recover s (H.hash .keccak256 b) with
        | none =>
          refine iff_of_false (by simp) ?_
          rintro ⟨rfl, _, _, p, h, _⟩
          rw [hr] at h; cases h
        | some p =>
          simp only
          by_cases hk : Moac.toLower (Hex.encode (C.compress p)) = Moac.toLower pub
          · rw [if_neg (by simpa using hk)]
            cases hv : C.verify p (H.hash .keccak256 b) (s.take 64) with
            | false =>
              refine iff_of_false (by simp) ?_
              rintro ⟨rfl, _, _, q, h, _, h'⟩
              rw [hr] at h
              cases h
              rw [hv] at h'; cases h'
            | true =>
              simp only [Bool.true_eq_false, if_false]
              cases b with
              | nil => exact iff_of_true rfl ⟨rfl, hs.1, hs.2.symm, p, hr, hk, hv⟩
              | cons x t =>
                refine iff_of_false ?_ (by simp)
                refine bind_ne ?_ fun a => ?_
                · unfold Moac.headOk; split_ifs <;> simp
                · split_ifs
                  · simp
                  · cases hx : Moac.decodeEmpty ((x :: t).drop 1) with
                    | panic => exact absurd hx (hdec _)
                    | err => simp
                    | ok y => simp
          · rw [if_pos hk]
            refine iff_of_false (by simp) ?_
            rintro ⟨rfl, _, _, q, h, h', _⟩
            rw [hr] at h
            cases h
            exact hk h'

/-- C142, Ontology: for a text the decoder accepts, the call panics exactly if a key that is not a point stands behind accepted signatures only. -/
theorem C142_ontology (H : Hashes) (C : Btc.Curve) (text : Bytes) (sps : List Ontology.SigPub) :
    Ontology.verifyAndCombine H C text sps = .panic ↔ ∃ b, HexText text b ∧ (∃ t, Ontology.decodeRawTransaction b = .ok t) ∧
      FirstBad (fun sp => ¬ C.decompress sp.publicKey = [] ∧ C.verify ((C.decompress sp.publicKey).drop 1) (Ontology.signHash H b) sp.signature = true)
        (fun sp => C.decompress sp.publicKey = []) sps := by
  have hsp : ∀ b, b.length = 102 ∨ b.head? = some 0x01 → Ontology.decodeSigPubBytes b ≠ .panic := by
    intro b hb
    unfold Ontology.decodeSigPubBytes
    refine Btc.bind_ne_panic (Btc.takeN_ne_panic _ _) fun a ha => ?_
    obtain ⟨h, r⟩ := a
    simp only
    by_cases hh : h = [0x41, 0x40]
    · rw [if_neg (by simpa using hh)]
      have hb' : b = h ++ r ∧ h.length = 2 := by
        unfold Btc.takeN at ha
        split_ifs at ha with hl
        · cases ha
          exact ⟨(List.take_append_drop _ _).symm, by rw [List.length_take]; omega⟩
      have hlen : b.length = 102 := by
        rcases hb with hb | hb
        · exact hb
        · rw [hb'.1, hh] at hb; cases hb
      refine Btc.bind_ne_panic (Btc.takeN_ne_panic _ _) fun a ha => ?_
      obtain ⟨s, r2⟩ := a
      simp only
      refine Btc.bind_ne_panic (Btc.takeN_ne_panic _ _) fun a ha2 => ?_
      obtain ⟨h2, r3⟩ := a
      simp only
      have h3 : r3.length = 34 := by
        unfold Btc.takeN at ha ha2
        split_ifs at ha with hl
        split_ifs at ha2 with hl2
        cases ha; cases ha2
        have := congrArg List.length hb'.1
        rw [List.length_append, hb'.2, hlen] at this
        rw [List.length_drop, List.length_drop]; omega
      by_cases h23 : h2 = [0x23, 0x21]
      · rw [if_neg (by simpa using h23), slice_ok (by omega) (by omega), Res.bind_ok]
        split_ifs <;> simp
      · rw [if_pos h23]; simp
    · rw [if_pos hh]; simp
  have hsigs : ∀ n b, Ontology.decodeSigs n b ≠ .panic := by
    intro n
    induction n with
    | zero => intro b; unfold Ontology.decodeSigs; split_ifs <;> simp
    | succ n ih =>
      intro b
      unfold Ontology.decodeSigs
      refine Btc.bind_ne_panic (Btc.takeN_ne_panic _ _) fun a ha => ?_
      obtain ⟨h, r⟩ := a
      simp only
      refine bind_ne (hsp h (.inl ?_)) fun a => bind_ne (ih _) fun a => by simp
      unfold Btc.takeN at ha
      split_ifs at ha with hl
      cases ha
      rw [List.length_take]; omega
  have hdec : ∀ b, Ontology.decodeRawTransaction b ≠ .panic := by
    intro b
    unfold Ontology.decodeRawTransaction
    refine bind_ne (Btc.take1_ne_panic _) fun a => ?_
    try dsimp only
    split
    · simp
    refine bind_ne (Btc.take1_ne_panic _) fun a => ?_
    try dsimp only
    split
    · simp
    iterate 4 refine bind_ne (Btc.takeN_ne_panic _ _) fun a => ?_
    refine bind_ne (Btc.take1_ne_panic _) fun a => ?_
    try dsimp only
    split
    · simp
    refine bind_ne (Btc.takeN_ne_panic _ _) fun a => ?_
    refine bind_ne (Btc.take1_ne_panic _) fun a => ?_
    try dsimp only
    split
    · simp
    refine bind_ne ?_ fun a => by simp
    unfold Ontology.decodeSigDatas
    refine Btc.bind_ne_panic (Btc.take1_ne_panic _) fun a' ha => ?_
    obtain ⟨n, r⟩ := a'
    simp only
    split_ifs with h1 h2 h3
    · simp
    · simp
    · refine bind_ne (hsp _ (.inr ?_)) fun a => by simp
      rw [h3] at ha
      cases hx : a.2 with
      | nil => rw [hx] at ha; cases ha
      | cons y z => rw [hx] at ha; cases ha; rfl
    · exact hsigs _ _
  have hto : ∀ t, Ontology.toBytes t ≠ .panic := by
    intro t; unfold Ontology.toBytes; split_ifs <;> simp
  unfold Ontology.verifyAndCombine
  cases h1 : Hex.decode text with
  | panic => exact absurd h1 (Hex.decode_ne_panic _)
  | err => exact iff_of_false (by simp) (hex_err h1)
  | ok b =>
    rw [hex_ok h1, Res.bind_ok]
    cases h2 : Ontology.decodeRawTransaction b with
    | panic => exact absurd h2 (hdec _)
    | err => simp
    | ok t =>
      simp only [Res.bind_ok, Res.ok.injEq, exists_eq', true_and]
      rw [DecPanic.bind_panic]
      · refine verify_loop (L := Ontology.verifyAll C (Ontology.signHash H b)) rfl ?_ ?_ ?_ sps
        · intro x xs hx
          rw [Ontology.verifyAll, if_pos hx]
        · intro x xs hx hg
          rw [Ontology.verifyAll, if_neg hx, if_neg (by simpa using hg)]
        · intro x xs hx hg
          rw [Ontology.verifyAll, if_neg hx, if_pos (by simpa using hg)]
      · intro v
        split_ifs
        · simp
        · cases hx : Ontology.toBytes { t with sigDatas := t.sigDatas ++ [⟨0, sps⟩] } with
          | panic => exact absurd hx (hto _)
          | err => simp
          | ok y => simp

/-- C142, Elastos: for a hexadecimal text the call panics exactly if a key that is not a point stands behind accepted signatures only. (A list of 2^56
signatures does not fit into memory.) -/
theorem C142_elastos (H : Hashes) (E : Btc.Curve) (text : Bytes) (sps : List Elastos.SigPub) (hn : sps.length < 2 ^ 56) :
    Elastos.verifyAndCombine H E text sps = .panic ↔ ∃ tx, HexText text tx ∧
      FirstBad (fun sp => ¬ E.decompress sp.pub = [] ∧ E.verify ((E.decompress sp.pub).drop 1) (H.hash .sha256 tx) sp.sig = true)
        (fun sp => E.decompress sp.pub = []) sps := by
  have hput : ∀ room x, 0 < room → x < 128 ^ room → Elastos.putUvarint room x ≠ .panic := by
    intro room
    induction room with
    | zero => intro x h; omega
    | succ r ih =>
      intro x _ hx
      unfold Elastos.putUvarint
      by_cases h : x ≥ 0x80
      · rw [if_pos h]
        have hr : 0 < r := by
          rcases Nat.eq_zero_or_pos r with h0 | h0
          · subst h0; omega
          · exact h0
        exact bind_ne (ih _ hr (Nat.div_lt_of_lt_mul (by rw [pow_succ, Nat.mul_comm] at hx; exact hx))) fun a => by simp
      · rw [if_neg h]; simp
  have hsp : ∀ s : Elastos.SigPub, s.toBytes ≠ .panic := by
    intro s; unfold Elastos.SigPub.toBytes; split_ifs <;> simp
  have hall : Elastos.sigpubsBytes sps ≠ .panic := by
    unfold Elastos.sigpubsBytes Elastos.uint64ToUvarint
    refine bind_ne (hput _ _ (by omega) (by norm_num; omega)) fun a => ?_
    exact bind_ne (loop_ne_panic (L := Elastos.mapAll Elastos.SigPub.toBytes) rfl (fun _ _ => rfl) hsp sps) fun a => by simp
  unfold Elastos.verifyAndCombine
  cases h1 : Hex.decode text with
  | panic => exact absurd h1 (Hex.decode_ne_panic _)
  | err => exact iff_of_false (by simp) (hex_err h1)
  | ok tx =>
    rw [hex_ok h1]
    dsimp only
    rw [DecPanic.bind_panic]
    · refine verify_loop (L := Elastos.verifyAll E (H.hash .sha256 tx)) rfl ?_ ?_ ?_ sps
      · intro x xs hx
        rw [Elastos.verifyAll, tail_slice, if_pos hx]; rfl
      · intro x xs hx hg
        rw [Elastos.verifyAll, tail_slice, if_neg hx, Res.bind_ok, if_pos hg]
      · intro x xs hx hg
        rw [Elastos.verifyAll, tail_slice, if_neg hx, Res.bind_ok, if_neg hg]
    · intro v
      split
      · cases hx : Elastos.sigpubsBytes sps with
        | panic => exact absurd hx hall
        | err => simp
        | ok y => simp
      · simp

/-- C142, Filenet: the call panics exactly if the count in the text asks for more memory than there is, or if the text has the length its count says, the
signature is 64 bytes in hexadecimal, and the key is a hexadecimal text of something that is not a point. -/
theorem C142_filenet (H : Hashes) (E : Btc.Curve) (mem : Nat) (text sig pub : Bytes) :
    Filenet.verifyAndCombine H E mem text sig pub = .panic ↔ ∃ b, HexText text b ∧ 44 ≤ b.length ∧
      (mem < leNat ((b.drop 20).take 8) ∨
        (b.length = 44 + 28 * leNat ((b.drop 20).take 8) ∧ (∃ s, HexText sig s ∧ s.length = 64) ∧ ∃ p, HexText pub p ∧ E.decompress p = [])) := by
  have hexenc : ∀ h : Bytes, h.length = 20 → ∃ t, Filenet.encodeAddress h = .ok t := by
    intro h hl
    unfold Filenet.encodeAddress
    rw [if_neg (by omega)]
    obtain ⟨t, ht, _⟩ := C01_base58_roundtrip Btc.alphabet Filenet.alphabet_ok (Hex.encode h)
    exact ⟨t, ht⟩
  have take : ∀ n (b : Bytes), n ≤ b.length → Btc.takeN n b = .ok (b.take n, b.drop n) := by
    intro n b h; unfold Btc.takeN; rw [if_neg (by omega)]
  have notake : ∀ n (b : Bytes), b.length < n → Btc.takeN n b = .err := by
    intro n b h; unfold Btc.takeN; rw [if_pos h]
  have hread : ∀ n (b : Bytes), (28 * n ≤ b.length → ∃ l, Filenet.readDetails n b = .ok (l, b.drop (28 * n))) ∧
      (b.length < 28 * n → Filenet.readDetails n b = .err) := by
    intro n
    induction n with
    | zero => intro b; exact ⟨fun _ => ⟨[], by simp [Filenet.readDetails]⟩, by simp⟩
    | succ n ih =>
      intro b
      unfold Filenet.readDetails
      obtain ⟨i1, i2⟩ := ih (b.drop 28)
      by_cases h28 : 28 ≤ b.length
      · rw [take 28 b h28, Res.bind_ok]
        dsimp only
        obtain ⟨t, ht⟩ := hexenc ((b.take 28).take 20) (by rw [List.length_take, List.length_take]; omega)
        rw [ht, Res.bind_ok]
        constructor
        · intro hl
          obtain ⟨l, h⟩ := i1 (by rw [List.length_drop]; omega)
          rw [h, Res.bind_ok]
          exact ⟨_, by rw [List.drop_drop, show 28 * (n + 1) = 28 + 28 * n from by omega]⟩
        · intro hl
          rw [i2 (by rw [List.length_drop]; omega)]; rfl
      · rw [notake 28 b (by omega)]
        exact ⟨fun h => by omega, fun _ => rfl⟩
  unfold Filenet.verifyAndCombine Filenet.decodeRaw
  cases h1 : Hex.decode text with
  | panic => exact absurd h1 (Hex.decode_ne_panic _)
  | err => exact iff_of_false (by simp) (hex_err h1)
  | ok b =>
    rw [hex_ok h1, Res.bind_ok]
    by_cases h44 : 44 ≤ b.length
    · rw [if_neg (by omega), take 20 b (by omega), Res.bind_ok]
      dsimp only
      obtain ⟨t, ht⟩ := hexenc (b.take 20) (by rw [List.length_take]; omega)
      rw [ht, Res.bind_ok, take 8 _ (by rw [List.length_drop]; omega), Res.bind_ok]
      dsimp only
      rw [take 8 _ (by rw [List.length_drop, List.length_drop]; omega), Res.bind_ok]
      dsimp only
      rw [take 8 _ (by rw [List.length_drop, List.length_drop, List.length_drop]; omega), Res.bind_ok]
      dsimp only
      simp only [List.drop_drop, h44, true_and]
      set n := leNat ((b.drop 20).take 8) with hn
      by_cases hm : mem < n
      · rw [if_pos hm]
        exact iff_of_true rfl (.inl hm)
      · rw [if_neg hm]
        simp only [hm, false_or]
        obtain ⟨r1, r2⟩ := hread n (b.drop 44)
        rw [List.length_drop] at r1 r2
        by_cases hl : b.length - 44 < 28 * n
        · rw [show 20 + 8 + 8 + 8 = 44 from rfl, r2 hl]
          refine iff_of_false (by simp) ?_
          rintro ⟨h, _⟩; omega
        · obtain ⟨l, hlr⟩ := r1 (by omega)
          rw [show 20 + 8 + 8 + 8 = 44 from rfl, hlr, Res.bind_ok]
          dsimp only
          by_cases he : b.length = 44 + 28 * n
          · rw [if_neg (by rw [not_not, List.drop_eq_nil_iff, List.length_drop]; omega)]
            simp only [he, true_and]
            by_cases hs : sig.length = 128
            · rw [if_neg (by omega)]
              cases h2 : Hex.decode sig with
              | panic => exact absurd h2 (Hex.decode_ne_panic _)
              | err =>
                refine iff_of_false (by simp) ?_
                rintro ⟨h, _⟩
                exact hex_err h2 h
              | ok s =>
                have hsl : s.length = 64 := by
                  have := ((Eip.decode_iff _ _).mp h2).1
                  omega
                simp only [Res.bind_ok, hex_ok h2, hsl, true_and, Hex.decode_encode]
                cases h3 : Hex.decode pub with
                | panic => exact absurd h3 (Hex.decode_ne_panic _)
                | err => exact iff_of_false (by simp) (hex_err h3)
                | ok p =>
                  rw [hex_ok h3]
                  dsimp only
                  rw [tail_slice]
                  by_cases hk : E.decompress p = []
                  · rw [if_pos hk]; exact iff_of_true rfl hk
                  · rw [if_neg hk, Res.bind_ok]
                    refine iff_of_false (by split_ifs <;> simp) hk
            · rw [if_pos hs]
              refine iff_of_false (by simp) ?_
              rintro ⟨⟨s, h, h'⟩, _⟩
              have := h.1
              omega
          · rw [if_pos (by rw [ne_eq, List.drop_eq_nil_iff, List.length_drop]; omega)]
            refine iff_of_false (by simp) ?_
            rintro ⟨h, _⟩; exact he h
    · refine iff_of_false ?_ (by rintro ⟨h, _⟩; exact h44 h)
      by_cases h0 : b.length = 0
      · rw [if_pos h0]; simp
      · rw [if_neg h0]
        by_cases l1 : b.length < 20
        · rw [notake 20 b l1]; simp
        rw [take 20 b (by omega), Res.bind_ok]
        dsimp only
        obtain ⟨t, ht⟩ := hexenc (b.take 20) (by rw [List.length_take]; omega)
        rw [ht, Res.bind_ok]
        by_cases l2 : (b.drop 20).length < 8
        · rw [notake 8 _ l2]; simp
        rw [take 8 _ (by omega), Res.bind_ok]
        dsimp only
        by_cases l3 : ((b.drop 20).drop 8).length < 8
        · rw [notake 8 _ l3]; simp
        rw [take 8 _ (by omega), Res.bind_ok]
        dsimp only
        rw [notake 8 _ (by simp only [List.length_drop]; omega)]
        simp

/-- C142: VSYS, FiiiCoin and BigBang never panic: the message for the node is made, or refused; the transaction is combined, or refused. -/
theorem C142_never (H : Hashes) (fold : Bytes → Bytes → Bool) (verify : Bytes → Bytes → Bytes → Bool) (text sig pub : Bytes) (sps : List Fiii.SigPub) :
    Vsys.createJSON text sig pub ≠ .panic ∧ Fiii.verifyAndCombine fold H verify text sps ≠ .panic := by
  constructor
  · unfold Vsys.createJSON Vsys.txStructDecode
    refine bind_ne (Hex.decode_ne_panic _) fun b => ?_
    refine bind_ne ?_ fun a => bind_ne (encode58_ne_panic _) fun _ => bind_ne (encode58_ne_panic _) fun _ => by simp
    refine bind_ne (Btc.take1_ne_panic _) fun a => ?_
    iterate 5 refine bind_ne (Btc.takeN_ne_panic _ _) fun a => ?_
    refine bind_ne (encode58_ne_panic _) fun a => ?_
    refine bind_ne (Btc.takeN_ne_panic _ _) fun a => ?_
    dsimp only
    split_ifs <;> simp
  · have hloop : ∀ (is : List Fiii.InputMsg) (sps : List Fiii.SigPub), Fiii.unlockLoop verify is sps ≠ .panic := by
      intro is
      induction is with
      | nil => intro sps; cases sps <;> simp [Fiii.unlockLoop]
      | cons i is ih =>
        intro sps
        cases sps with
        | nil => simp [Fiii.unlockLoop]
        | cons sp sps =>
          unfold Fiii.unlockLoop Fiii.genMessageBytes
          refine bind_ne (bind_ne (Hex.decode_ne_panic _) fun _ => by simp) fun msg => ?_
          split
          · simp
          · refine bind_ne ?_ fun u => bind_ne (ih _) fun _ => by simp
            unfold Fiii.genUnlockScript
            split_ifs <;> simp
    unfold Fiii.verifyAndCombine
    cases Fiii.unmarshal fold text with
    | none => simp
    | some t =>
      dsimp only
      split
      · simp
      · exact bind_ne (hloop _ _) fun _ => by simp

end Verif
