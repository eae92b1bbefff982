import Verif.Spec.BytomWire
import Verif.Lemmas.Hex
import Verif.Props.Bytom
import Verif.Lemmas.AddressEncoder

/-!
C120: which texts Bytom's decoder accepts. The exact language is given; it is larger than the serialisations: the version may be preceded by
any bytes with the high bit set, and the length byte of a single-key witness is not looked at.
-/

namespace Verif
open Spec.BytomWire

namespace Bytom

theorem take1_iff (b : Bytes) (x : UInt8) (r : Bytes) : take1 b = .ok (x, r) ↔ b = x :: r := by
  cases b <;> simp [take1]

theorem takeN_iff (n : Nat) (b x r : Bytes) : takeN n b = .ok (x, r) ↔ b = x ++ r ∧ x.length = n := by
  unfold takeN
  split
  · rename_i h
    simp only [reduceCtorEq, false_iff, not_and]
    rintro rfl
    simp at h; omega
  · rename_i h
    simp only [Res.ok.injEq, Prod.mk.injEq]
    constructor
    · rintro ⟨rfl, rfl⟩; simp; omega
    · rintro ⟨rfl, rfl⟩; simp

theorem scanUvarint_iff : ∀ (b v r : Bytes), scanUvarint b = .ok (v, r) ↔ b = v ++ r ∧ IsVarint v := by
  intro b
  induction b with
  | nil =>
    intro v r
    simp only [scanUvarint, reduceCtorEq, false_iff, not_and]
    intro h
    have : v = [] := (List.append_eq_nil_iff.mp h.symm).1
    subst this
    rintro ⟨hs, l, h, _⟩
    simp at h
  | cons x b ih =>
    intro v r
    unfold scanUvarint
    split
    · rename_i hx
      simp only [Res.ok.injEq, Prod.mk.injEq]
      constructor
      · rintro ⟨rfl, rfl⟩
        exact ⟨rfl, [], x, rfl, by simp, hx⟩
      · rintro ⟨h, hs, l, rfl, hh, hl⟩
        rcases hs with _ | ⟨y, hs⟩
        · simp at h
          exact ⟨by simp [h.1], h.2⟩
        · simp at h
          have := hh y (by simp)
          rw [← h.1] at this
          exact absurd hx (by rw [UInt8.not_lt]; exact this)
    · rename_i hx
      rw [Res.bind_eq_ok]
      simp only [Prod.exists, ih]
      constructor
      · rintro ⟨v', r', ⟨rfl, hs, l, rfl, hh, hl⟩, h⟩
        simp only [Res.ok.injEq, Prod.mk.injEq] at h
        obtain ⟨rfl, rfl⟩ := h
        refine ⟨rfl, x :: hs, l, rfl, ?_, hl⟩
        intro y hy
        rcases List.mem_cons.mp hy with rfl | hy
        · exact UInt8.not_lt.mp hx
        · exact hh y hy
      · rintro ⟨h, hs, l, rfl, hh, hl⟩
        rcases hs with _ | ⟨y, hs⟩
        · simp at h
          rw [h.1] at hx
          exact absurd hl hx
        · simp only [List.cons_append, List.cons.injEq] at h
          refine ⟨hs ++ [l], r, ⟨h.2, hs, l, rfl, fun z hz => hh z (by simp [hz]), hl⟩, ?_⟩
          rw [h.1]; rfl

theorem readUvarint_iff (b v r : Bytes) : readUvarint b = .ok (v, r) ↔ b = v ++ r ∧ IsVarint v := by
  rw [← scanUvarint_iff]
  cases b with
  | nil => simp [readUvarint, scanUvarint]
  | cons x b => rfl

theorem readVersion_iff : ∀ (b v r : Bytes), readVersion b = .ok (v, r) ↔
    ∃ skip l, b = skip ++ l :: r ∧ (∀ h ∈ skip, (0x80 : UInt8) ≤ h) ∧ l < (0x80 : UInt8) ∧ v = [l] := by
  intro b
  induction b with
  | nil => intro v r; simp [readVersion]
  | cons x b ih =>
    intro v r
    unfold readVersion
    split
    · rename_i hx
      simp only [Res.ok.injEq, Prod.mk.injEq]
      constructor
      · rintro ⟨rfl, rfl⟩
        exact ⟨[], x, rfl, by simp, hx, rfl⟩
      · rintro ⟨skip, l, h, hh, hl, rfl⟩
        rcases skip with _ | ⟨y, skip⟩
        · simp at h
          exact ⟨by simp [h.1], h.2⟩
        · simp at h
          have := hh y (by simp)
          rw [← h.1] at this
          exact absurd hx (by rw [UInt8.not_lt]; exact this)
    · rename_i hx
      rw [ih]
      constructor
      · rintro ⟨skip, l, rfl, hh, hl, rfl⟩
        refine ⟨x :: skip, l, rfl, ?_, hl, rfl⟩
        intro y hy
        rcases List.mem_cons.mp hy with rfl | hy
        · exact UInt8.not_lt.mp hx
        · exact hh y hy
      · rintro ⟨skip, l, h, hh, hl, rfl⟩
        rcases skip with _ | ⟨y, skip⟩
        · simp at h
          rw [h.1] at hx
          exact absurd hl hx
        · simp at h
          exact ⟨skip, l, h.2, fun z hz => hh z (by simp [hz]), hl, rfl⟩

theorem ite_err {α : Type} {p : Prop} [Decidable p] {x : Res α} {y : α} : (if p then .err else x) = .ok y ↔ ¬ p ∧ x = .ok y := by
  split <;> simp_all

theorem ofNat_len {l : UInt8} {n : Nat} (h : n < 256) : l = UInt8.ofNat n ↔ l.toNat = n := by
  constructor
  · rintro rfl; rw [UInt8.toNat_ofNat']; omega
  · rintro rfl; simp

theorem decodeCommitment_iff (script : Bytes) (hs : script.length < 256) (i : TxIn) : decodeCommitment script = .ok i ↔
    ∃ pos prog commitment body : Bytes, i.sourceID.length = 32 ∧ i.assetID.length = 32 ∧ IsVarint i.amount ∧
      i.sourcePosition.length = 1 ∧ i.sourcePosition = pos ∧ IsStr prog i.controlProgram ∧
      body = i.sourceID ++ i.assetID ++ i.amount ++ pos ++ [1] ++ prog ∧ IsStr commitment body ∧
      script = 1 :: commitment ∧ i.sigPub = none ∧ i.multiSig = none := by
  unfold decodeCommitment
  simp only [Res.bind_eq_ok, Prod.exists, take1_iff, takeN_iff, readUvarint_iff, ite_err, ne_eq, not_not, Res.ok.injEq]
  constructor
  · rintro ⟨v, b1, rfl, rfl, l, b2, rfl, hl, src, b3, ⟨rfl, h1⟩, asset, b4, ⟨rfl, h2⟩, amt, b5, ⟨rfl, h3⟩, pos, b6, rfl, v, b7, rfl, rfl,
      cl, prog, rfl, hcl, hcl', rfl⟩
    have hp : prog.length < 256 := by rw [← hcl']; exact cl.toNat_lt
    refine ⟨[pos], cl :: prog, l :: (src ++ (asset ++ (amt ++ pos :: 1 :: cl :: prog))), src ++ asset ++ amt ++ [pos] ++ [1] ++ (cl :: prog),
      h1, h2, h3, rfl, rfl, ⟨?_, hp, ?_⟩, rfl, ⟨by simp, ?_, ?_⟩, rfl, rfl, rfl⟩
    · rintro rfl
      apply hcl
      apply UInt8.toNat_inj.mp
      rw [hcl']; rfl
    · simp only [List.cons.injEq, and_true]
      exact (ofNat_len hp).mpr hcl'
    · simp at hs ⊢; omega
    · simp only [List.append_assoc, List.cons_append, List.nil_append, List.cons.injEq, and_true]
      rw [hl]
      simp
  · rintro ⟨pos, prog, commitment, body, h1, h2, h3, h4, rfl, ⟨hp1, hp2, rfl⟩, rfl, ⟨_, hb, rfl⟩, rfl, h5, h6⟩
    obtain ⟨src, sp, asset, amt, cp, sg, ms⟩ := i
    simp only at h1 h2 h3 h4 h5 h6 hp1 hp2 hb ⊢
    subst h5 h6
    match sp, h4 with
    | [pos], _ =>
      refine ⟨1, _, rfl, rfl, _, _, rfl, ?_, src, asset ++ (amt ++ pos :: 1 :: UInt8.ofNat cp.length :: cp), ⟨by simp, h1⟩, asset, _, ⟨rfl, h2⟩, amt, _, ⟨rfl, h3⟩,
        pos, _, rfl, 1, _, rfl, rfl, UInt8.ofNat cp.length, cp, rfl, ?_, ?_, rfl⟩
      · simp
      · intro h0
        apply hp1
        apply List.length_eq_zero_iff.mp
        have := congrArg UInt8.toNat h0
        rw [UInt8.toNat_ofNat'] at this
        have z : (0 : UInt8).toNat = 0 := rfl
        rw [z] at this
        omega
      · rw [UInt8.toNat_ofNat']; omega

theorem u8_two {k : UInt8} (h1 : ¬ k = 1) (h0 : ¬ k = 0) : 2 ≤ k := by
  revert h1 h0; revert k; apply Hex.u8_forall; decide +kernel

theorem u8_two' {k : UInt8} (h : 2 ≤ k) : ¬ k = 1 ∧ ¬ k = 0 := by
  revert h; revert k; apply Hex.u8_forall; decide +kernel

theorem decodeWitness_iff (i : TxIn) (hi : i.sigPub = none ∧ i.multiSig = none) (b : Bytes) (j : TxIn) (r : Bytes) :
    decodeWitness i b = .ok (j, r) ↔ ∃ w, Witness false w j.sigPub j.multiSig ∧ b = w ++ r ∧ j = { i with sigPub := j.sigPub, multiSig := j.multiSig } := by
  obtain ⟨src, sp, asset, amt, cp, sg, ms⟩ := i
  simp only at hi
  obtain ⟨rfl, rfl⟩ := hi
  unfold decodeWitness
  simp only [Res.bind_eq_ok, Prod.exists, take1_iff]
  constructor
  · rintro ⟨k, b1, rfl, h⟩
    split at h
    · rename_i hk
      subst hk
      simp only [Res.bind_eq_ok, Prod.exists, take1_iff, ite_err, ne_eq, not_not, Res.ok.injEq, Prod.mk.injEq] at h
      obtain ⟨z, b2, rfl, rfl, rfl, rfl⟩ := h
      exact ⟨[1, 0], .none, rfl, rfl⟩
    · rename_i hk1
      rw [ite_err] at h
      obtain ⟨hk0, h⟩ := h
      have hk := u8_two hk1 hk0
      split at h
      · rename_i x y r'
        split at h
        · rename_i hxy
          obtain ⟨rfl, rfl⟩ := hxy
          simp only [Res.bind_eq_ok, Prod.exists, take1_iff, takeN_iff, ite_err, ne_eq, not_not, Res.ok.injEq, Prod.mk.injEq] at h
          obtain ⟨sig, b2, ⟨rfl, hs⟩, l, b3, rfl, rfl, pub, b4, ⟨rfl, hp⟩, rfl, rfl⟩ := h
          exact ⟨_, .single k sig pub hs hp hk (by simp), by simp, rfl⟩
        · split at h
          · rename_i hxy
            obtain ⟨rfl, rfl⟩ := hxy
            simp only [Res.bind_eq_ok, Prod.exists, takeN_iff, Res.ok.injEq, Prod.mk.injEq] at h
            obtain ⟨m, b2, ⟨h1, h2⟩, rfl, rfl⟩ := h
            match m, h2, h1 with
            | [], h2, _ => simp at h2
            | [x], h2, _ =>
              have : k.toNat = 0 := by simpa using h2.symm
              exact absurd (UInt8.toNat_inj.mp this) hk0
            | x :: y :: m, h2, h1 =>
              simp only [List.cons_append, List.cons.injEq] at h1
              obtain ⟨rfl, rfl, rfl⟩ := h1
              refine ⟨_, .multi k m hk ?_, by simp, rfl⟩
              simp at h2; omega
          · cases h
      · cases h
  · rintro ⟨w, hw, rfl, hj⟩
    obtain ⟨src', sp', asset', amt', cp', sg', ms'⟩ := j
    simp only [TxIn.mk.injEq] at hj hw
    obtain ⟨rfl, rfl, rfl, rfl, rfl, _, _⟩ := hj
    cases hw with
    | none => exact ⟨1, _, rfl, by simp [take1]⟩
    | single k sig pub hs hp hk _ =>
      obtain ⟨k1, k0⟩ := u8_two' hk
      refine ⟨k, [2, 0x40] ++ sig ++ [32] ++ pub ++ r, by simp, ?_⟩
      rw [if_neg k1, if_neg k0]
      simp only [List.cons_append, List.nil_append, List.append_assoc, and_self, if_true]
      simp only [Res.bind_eq_ok, Prod.exists, take1_iff, takeN_iff, ite_err, ne_eq, not_not, Res.ok.injEq, Prod.mk.injEq]
      exact ⟨sig, _, ⟨rfl, hs⟩, 32, _, rfl, rfl, pub, r, ⟨rfl, hp⟩, rfl, rfl⟩
    | multi k rest hk hl =>
      obtain ⟨k1, k0⟩ := u8_two' hk
      refine ⟨k, [1, 3] ++ rest ++ r, by simp, ?_⟩
      rw [if_neg k1, if_neg k0]
      simp only [List.cons_append, List.nil_append, and_self, if_true]
      rw [if_neg (by decide)]
      simp only [Res.bind_eq_ok, Prod.exists, takeN_iff, Res.ok.injEq, Prod.mk.injEq]
      exact ⟨1 :: 3 :: rest, r, ⟨rfl, by simp; omega⟩, rfl, rfl⟩

theorem decodeIn_iff (b : Bytes) (i : TxIn) (r : Bytes) : decodeIn b = .ok (i, r) ↔ ∃ w, IsIn false w i ∧ b = w ++ r := by
  unfold decodeIn
  simp only [Res.bind_eq_ok, Prod.exists, take1_iff, takeN_iff, ite_err, ne_eq, not_not]
  constructor
  · rintro ⟨v, b1, rfl, rfl, l, b2, rfl, hl, c, b3, ⟨rfl, hc⟩, i0, hd, hw⟩
    have hlt : c.length < 256 := by rw [hc]; exact l.toNat_lt
    obtain ⟨pos, prog, commitment, body, h1, h2, h3, h4, h5, h6, h7, h8, rfl, h9, h10⟩ := (decodeCommitment_iff c hlt i0).mp hd
    obtain ⟨w, hw1, rfl, hj⟩ := (decodeWitness_iff i0 ⟨h9, h10⟩ _ _ _).mp hw
    obtain ⟨src, sp, asset, amt, cp, sg, ms⟩ := i
    simp only [TxIn.mk.injEq, and_true] at hj
    obtain ⟨rfl, rfl, rfl, rfl, rfl⟩ := hj
    refine ⟨[1] ++ l :: 1 :: commitment ++ w, ⟨pos, prog, commitment, l :: 1 :: commitment, body, w, h1, h2, h3, h4, h5, h6, h7, h8, ⟨by simp, hlt, ?_⟩, hw1, rfl⟩, by simp⟩
    rw [(ofNat_len hlt).mpr hc.symm]
  · rintro ⟨_, ⟨pos, prog, commitment, commitment', body, w, h1, h2, h3, h4, h5, h6, h7, h8, ⟨_, hlt, rfl⟩, hw, rfl⟩, rfl⟩
    refine ⟨1, _, rfl, rfl, UInt8.ofNat (1 :: commitment).length, 1 :: commitment ++ (w ++ r), by simp, ?_, 1 :: commitment, w ++ r, ⟨rfl, ?_⟩,
      { i with sigPub := none, multiSig := none }, ?_, ?_⟩
    · intro h0
      have := congrArg UInt8.toNat h0
      rw [UInt8.toNat_ofNat'] at this
      have z : (0 : UInt8).toNat = 0 := rfl
      rw [z] at this
      simp only [List.length_cons] at this hlt
      omega
    · rw [UInt8.toNat_ofNat']; omega
    · exact (decodeCommitment_iff _ hlt _).mpr ⟨pos, prog, commitment, body, h1, h2, h3, h4, h5, h6, h7, h8, rfl, rfl, rfl⟩
    · exact (decodeWitness_iff _ ⟨rfl, rfl⟩ _ _ _).mpr ⟨w, hw, rfl, rfl⟩

theorem decodeOut_iff (b : Bytes) (o : TxOut) (r : Bytes) : decodeOut b = .ok (o, r) ↔ ∃ w, IsOut w o ∧ b = w ++ r := by
  unfold decodeOut decodeOutputScript
  simp only [Res.bind_eq_ok, Prod.exists, take1_iff, takeN_iff, readUvarint_iff, ite_err, ne_eq, not_not, Res.ok.injEq, Prod.mk.injEq]
  constructor
  · rintro ⟨v, b1, rfl, rfl, l, b2, rfl, hl, s, b3, ⟨rfl, hs⟩, o', ⟨asset, c1, ⟨rfl, h1⟩, amt, c2, ⟨rfl, h2⟩, v, c3, rfl, rfl, pl, prog, rfl, hpl, _, hpl', rfl⟩,
      w, b4, rfl, rfl, rfl, rfl⟩
    have hp : prog.length < 256 := by rw [← hpl']; exact pl.toNat_lt
    have hlt : (asset ++ (amt ++ 1 :: pl :: prog)).length < 256 := by rw [hs]; exact l.toNat_lt
    refine ⟨[1] ++ (l :: (asset ++ (amt ++ 1 :: pl :: prog))) ++ [0], ⟨prog, l :: (asset ++ (amt ++ 1 :: pl :: prog)), h1, h2, ⟨?_, hp, ?_⟩, ⟨by simp, ?_, ?_⟩, rfl⟩, by simp⟩
    · rintro rfl
      apply hpl
      apply UInt8.toNat_inj.mp
      rw [hpl']; rfl
    · simp only [List.cons.injEq, and_true]
      exact (ofNat_len hp).mpr hpl'
    · simpa using hlt
    · simp only [List.append_assoc, List.cons_append, List.nil_append, List.cons.injEq, and_true]
      exact (ofNat_len hlt).mpr hs.symm
  · rintro ⟨_, ⟨prog, commitment, h1, h2, ⟨hp1, hp2, hp3⟩, ⟨_, hlt, rfl⟩, rfl⟩, rfl⟩
    obtain ⟨asset, cp, amt⟩ := o
    simp only at h1 h2 hp3 hlt ⊢
    subst hp3
    refine ⟨1, UInt8.ofNat (asset ++ amt ++ [1] ++ UInt8.ofNat prog.length :: prog).length :: (asset ++ (amt ++ 1 :: UInt8.ofNat prog.length :: prog) ++ 0 :: r),
      by simp only [List.append_assoc, List.cons_append, List.nil_append], rfl,
      UInt8.ofNat (asset ++ amt ++ [1] ++ UInt8.ofNat prog.length :: prog).length, asset ++ (amt ++ 1 :: UInt8.ofNat prog.length :: prog) ++ 0 :: r,
      rfl, ?_, asset ++ (amt ++ 1 :: UInt8.ofNat prog.length :: prog), 0 :: r, ⟨rfl, ?_⟩,
      ⟨asset, UInt8.ofNat prog.length :: prog, amt⟩, ⟨asset, _, ⟨rfl, h1⟩, amt, _, ⟨rfl, h2⟩, 1, _, rfl, rfl, UInt8.ofNat prog.length, prog, rfl, ?_, ?_, ?_, rfl⟩, 0, r, rfl, rfl, rfl, rfl⟩
    · intro h0
      have := congrArg UInt8.toNat h0
      rw [UInt8.toNat_ofNat'] at this
      have z : (0 : UInt8).toNat = 0 := rfl
      rw [z] at this
      simp only [List.length_append, List.length_cons] at this hlt
      omega
    · rw [UInt8.toNat_ofNat']
      simp only [List.length_append, List.length_cons, List.length_nil] at hlt ⊢
      omega
    · intro h0
      apply hp1
      apply List.length_eq_zero_iff.mp
      have := congrArg UInt8.toNat h0
      rw [UInt8.toNat_ofNat'] at this
      have z : (0 : UInt8).toNat = 0 := rfl
      rw [z] at this
      omega
    · rw [UInt8.toNat_ofNat']; omega
    · rw [UInt8.toNat_ofNat']; omega

theorem readMany_iff {α : Type} (f : Bytes → Res (α × Bytes)) (P : Bytes → α → Prop) (hf : ∀ b x r, f b = .ok (x, r) ↔ ∃ w, P w x ∧ b = w ++ r) :
    ∀ (n : Nat) (b : Bytes) (xs : List α) (r : Bytes), readMany f n b = .ok (xs, r) ↔ ∃ ws, List.Forall₂ P ws xs ∧ xs.length = n ∧ b = ws.flatten ++ r := by
  intro n
  induction n with
  | zero =>
    intro b xs r
    simp only [readMany, Res.ok.injEq, Prod.mk.injEq]
    constructor
    · rintro ⟨rfl, rfl⟩; exact ⟨[], .nil, rfl, rfl⟩
    · rintro ⟨ws, h, hl, rfl⟩
      have := List.length_eq_zero_iff.mp hl
      subst this
      cases h
      exact ⟨rfl, rfl⟩
  | succ n ih =>
    intro b xs r
    unfold readMany
    simp only [Res.bind_eq_ok, Prod.exists, hf, ih, Res.ok.injEq, Prod.mk.injEq]
    constructor
    · rintro ⟨x, b1, ⟨w, hw, rfl⟩, xs', b2, ⟨ws, hws, hl, rfl⟩, rfl, rfl⟩
      exact ⟨w :: ws, .cons hw hws, by simp [hl], by simp⟩
    · rintro ⟨ws, h, hl, rfl⟩
      cases h with
      | nil => simp at hl
      | @cons w x ws xs' hw hws =>
        exact ⟨x, ws.flatten ++ r, ⟨w, hw, by simp⟩, xs', r, ⟨ws, hws, by simpa using hl, rfl⟩, rfl, rfl⟩

end Bytom

/-- C120, the exact language: the decoder accepts a text with a result exactly if the text has the shape of a transaction with these fields, where
bytes with the high bit set may stand before the version and the length byte of a single-key witness may be any number from 2 on. Missing: these
two are no serialisations (`C120_version_violated`, `C120_witness_violated`), and cut-off texts may panic (`C120_cut_violated`). -/
theorem C120_language_partial (b : Bytes) (t : Bytom.Transaction) : Bytom.decodeRaw b = .ok t ↔ IsTx false b t := by
  unfold Bytom.decodeRaw
  simp only [Res.bind_eq_ok, Prod.exists, Bytom.take1_iff, Bytom.readUvarint_iff, Bytom.readVersion_iff, Bytom.ite_err, ne_eq, not_not, Res.ok.injEq,
    Bytom.readMany_iff _ _ Bytom.decodeIn_iff, Bytom.readMany_iff _ _ Bytom.decodeOut_iff]
  constructor
  · rintro ⟨f, b1, rfl, rfl, ver, b2, ⟨skip, l, rfl, hh, hl, rfl⟩, tr, b3, ⟨rfl, htr⟩, n, b4, rfl, hn, ins, b5, ⟨ws, hws, hwl, rfl⟩, m, b6, rfl, hm,
      outs, b7, ⟨os, hos, hol, rfl⟩, rfl, rfl⟩
    have hn' : n.toNat ≠ 0 := fun h => hn (UInt8.toNat_inj.mp h)
    have hm' : m.toNat ≠ 0 := fun h => hm (UInt8.toNat_inj.mp h)
    have := n.toNat_lt
    have := m.toNat_lt
    refine ⟨skip, l, ws, os, hh, hl, by simp, rfl, htr, hws, hos, by simp only; omega, by simp only; omega, by simp only; omega, by simp only; omega, ?_⟩
    simp only [hwl, hol, UInt8.ofNat_toNat]
    simp
  · rintro ⟨skip, ver, ins, outs, hh, hl, _, hv, htr, hws, hos, h1, h2, h3, h4, rfl⟩
    obtain ⟨v, tr, is, os⟩ := t
    simp only at hv htr hws hos h1 h2 h3 h4 ⊢
    subst hv
    have nz : ∀ n : Nat, 0 < n → n < 256 → ¬ UInt8.ofNat n = 0 := by
      intro n g1 g2 h0
      have := congrArg UInt8.toNat h0
      rw [UInt8.toNat_ofNat'] at this
      have z : (0 : UInt8).toNat = 0 := rfl
      rw [z] at this
      omega
    have tn : ∀ n : Nat, n < 256 → (UInt8.ofNat n).toNat = n := by intro n g; rw [UInt8.toNat_ofNat']; omega
    refine ⟨7, skip ++ ver :: (tr ++ UInt8.ofNat is.length :: (ins.flatten ++ UInt8.ofNat os.length :: outs.flatten)), by simp, rfl, [ver], _, ⟨skip, ver, rfl, hh, hl, rfl⟩, tr, _, ⟨rfl, htr⟩, UInt8.ofNat is.length, _, rfl, nz _ h1 h2,
      is, UInt8.ofNat os.length :: outs.flatten, ⟨ins, hws, (tn _ h2).symm, rfl⟩, UInt8.ofNat os.length, _, rfl, nz _ h3 h4, os, [], ⟨outs, hos, (tn _ h4).symm, by simp⟩, rfl, rfl⟩

namespace Bytom

theorem isStr_unique {b b' s : Bytes} (h : IsStr b s) (h' : IsStr b' s) : b = b' := by rw [h.2.2, h'.2.2]

theorem witness_unique {w w' : Bytes} {s : Option SigPub} {m : Option Bytes} (h : Witness true w s m) (h' : Witness true w' s m) : w = w' := by
  cases h with
  | none => cases h'; rfl
  | single k sig pub h1 h2 h3 h4 =>
    cases h' with
    | single k' _ _ g1 g2 g3 g4 => rw [h4 rfl, g4 rfl]
  | multi k rest h1 h2 =>
    cases h' with
    | multi k' _ g1 g2 =>
      have : k = k' := UInt8.toNat_inj.mp (by omega)
      rw [this]

theorem isIn_unique {b b' : Bytes} {i : TxIn} (h : IsIn true b i) (h' : IsIn true b' i) : b = b' := by
  obtain ⟨pos, prog, c, c', body, w, _, _, _, _, rfl, h1, rfl, h2, h3, h4, rfl⟩ := h
  obtain ⟨pos', prog', d, d', body', w', _, _, _, _, rfl, g1, rfl, g2, g3, g4, rfl⟩ := h'
  obtain rfl := isStr_unique h1 g1
  obtain rfl := isStr_unique h2 g2
  obtain rfl := isStr_unique h3 g3
  obtain rfl := witness_unique h4 g4
  rfl

theorem isOut_unique {b b' : Bytes} {o : TxOut} (h : IsOut b o) (h' : IsOut b' o) : b = b' := by
  obtain ⟨p, c, _, _, h1, h2, rfl⟩ := h
  obtain ⟨p', c', _, _, g1, g2, rfl⟩ := h'
  obtain rfl := isStr_unique h2 g2
  rfl

theorem forall₂_unique {α β : Type} {P : α → β → Prop} (hP : ∀ a a' b, P a b → P a' b → a = a') :
    ∀ {l l' : List α} {m : List β}, List.Forall₂ P l m → List.Forall₂ P l' m → l = l' := by
  intro l l' m h
  induction h generalizing l' with
  | nil => intro h'; cases h'; rfl
  | cons h1 _ ih => intro h'; cases h' with | cons g1 g2 => rw [hP _ _ _ h1 g1, ih g2]

end Bytom

/-- A transaction has at most one serialisation (version of one byte, right length bytes), and the decoder reads it as this transaction: different
serialisations are read as different transactions. -/
theorem C120_unique_partial (b b' : Bytes) (t t' : Bytom.Transaction) (h : IsTx true b t) (h' : IsTx true b' t') :
    Bytom.decodeRaw b = .ok t ∧ Bytom.decodeRaw b' = .ok t' ∧ (b = b' ↔ t = t') := by
  have weakW : ∀ w s m, Witness true w s m → Witness false w s m := by
    intro w s m h
    cases h with
    | none => exact .none
    | single k sig pub h1 h2 h3 h4 => exact .single k sig pub h1 h2 h3 (by simp)
    | multi k rest h1 h2 => exact .multi k rest h1 h2
  have weakI : ∀ w i, IsIn true w i → IsIn false w i := by
    rintro w i ⟨pos, prog, c, c', body, w, h1, h2, h3, h4, h5, h6, h7, h8, h9, h10, h11⟩
    exact ⟨pos, prog, c, c', body, w, h1, h2, h3, h4, h5, h6, h7, h8, h9, weakW _ _ _ h10, h11⟩
  have weak : ∀ b t, IsTx true b t → IsTx false b t := by
    rintro b t ⟨skip, ver, ins, outs, h1, h2, h3, h4, h5, h6, h7⟩
    exact ⟨skip, ver, ins, outs, h1, h2, by simp, h4, h5, h6.imp weakI, h7⟩
  have d1 := (C120_language_partial b t).mpr (weak _ _ h)
  have d2 := (C120_language_partial b' t').mpr (weak _ _ h')
  refine ⟨d1, d2, ?_, ?_⟩
  · rintro rfl
    rw [d1] at d2
    exact Res.ok.inj d2
  · rintro rfl
    obtain ⟨skip, ver, ins, outs, h1, h2, h3, h4, h5, h6, h7, h8, h9, h10, h11, rfl⟩ := h
    obtain ⟨skip', ver', ins', outs', g1, g2, g3, g4, g5, g6, g7, g8, g9, g10, g11, rfl⟩ := h'
    rw [h3 rfl, g3 rfl]
    rw [h4] at g4
    obtain rfl : ver = ver' := by simpa using g4
    obtain rfl := Bytom.forall₂_unique (P := IsIn true) (fun _ _ _ => Bytom.isIn_unique) h6 g6
    obtain rfl := Bytom.forall₂_unique (P := IsOut) (fun _ _ _ => Bytom.isOut_unique) h7 g7
    rfl

/-- Where C120 fails (1): bytes with the high bit set before the version are skipped, so that every serialisation has further texts that are read as the
same transaction. -/
theorem C120_version_violated (rest : Bytes) (t : Bytom.Transaction) (h : IsTx true (7 :: rest) t) (skip : Bytes) (hs : ∀ x ∈ skip, (0x80 : UInt8) ≤ x) :
    Bytom.decodeRaw (7 :: (skip ++ rest)) = .ok t ∧ (skip ≠ [] → ∀ t', ¬ IsTx true (7 :: (skip ++ rest)) t') := by
  have hd := (C120_unique_partial _ _ _ _ h h).1
  obtain ⟨s0, ver, ins, outs, h1, h2, h3, h4, h5, h6, h7, h8, h9, h10, h11, h12⟩ := (C120_language_partial _ _).mp hd
  obtain ⟨s1, v1, _, _, _, _, k3, _, _, _, _, _, _, _, _, k12⟩ := h
  have hs0 : s0 = [] := by
    rcases s0 with _ | ⟨x, s0⟩
    · rfl
    · rw [k3 rfl] at k12
      rw [h12] at k12
      simp only [List.cons_append, List.nil_append, List.append_assoc, List.cons.injEq, true_and] at k12
      rename_i hv1 _ _ _ _ _ _ _ _
      have : (0x80 : UInt8) ≤ x := h1 x (by simp)
      rw [k12.1] at this
      exact absurd hv1 (by rw [UInt8.not_lt]; exact this)
  subst hs0
  constructor
  · refine (C120_language_partial _ _).mpr ⟨skip, ver, ins, outs, hs, h2, by simp, h4, h5, h6, h7, h8, h9, h10, h11, ?_⟩
    simp only [List.cons_append, List.nil_append, List.append_assoc, List.cons.injEq, true_and] at h12 ⊢
    rw [h12]
  · intro hne t' ht'
    obtain ⟨s2, v2, ins2, outs2, l1, l2, l3, l4, l5, l6, l7, l8, l9, l10, l11, l12⟩ := ht'
    rw [l3 rfl] at l12
    rcases skip with _ | ⟨x, skip⟩
    · exact hne rfl
    · simp only [List.cons_append, List.nil_append, List.append_assoc, List.cons.injEq, true_and] at l12
      have : (0x80 : UInt8) ≤ x := hs x (by simp)
      rw [l12.1] at this
      exact absurd l2 (by rw [UInt8.not_lt]; exact this)

/-- A transaction with one input, signed by one key, and one output; `k` is the length byte of the witness. -/
def c120Text (k : UInt8) : Bytes :=
  [7] ++ [1] ++ [0] ++ [1] ++ ([1, 92] ++ ([1, 90] ++ (List.replicate 32 5 ++ List.replicate 32 6 ++ [0x90, 0x4e] ++ [1] ++ [1] ++ 21 :: List.replicate 21 7)) ++
    ([k, 2, 0x40] ++ List.replicate 64 8 ++ [32] ++ List.replicate 32 9)) ++ [1] ++ ([1, 37] ++ (List.replicate 32 6 ++ [4] ++ [1] ++ [2, 0, 1]) ++ [0])

def c120Tx : Bytom.Transaction where
  version := [1]
  timeRange := [0]
  inputs := [⟨List.replicate 32 5, [1], List.replicate 32 6, [0x90, 0x4e], List.replicate 21 7,
    some ⟨some (List.replicate 64 8), some (List.replicate 32 9)⟩, none⟩]
  outputs := [{ assetID := List.replicate 32 6, controlProgram := [2, 0, 1], amount := [4] }]

/-- The text with the right length byte 0x63 is a serialisation. -/
theorem c120_isTx : IsTx true (c120Text 0x63) c120Tx := by
  have v1 : IsVarint [0] := ⟨[], 0, rfl, by simp, by decide⟩
  have v2 : IsVarint [0x90, 0x4e] := ⟨[0x90], 0x4e, rfl, by simp, by decide⟩
  have v3 : IsVarint [4] := ⟨[], 4, rfl, by simp, by decide⟩
  refine ⟨[], 1, [[1, 92] ++ ([1, 90] ++ (List.replicate 32 5 ++ List.replicate 32 6 ++ [0x90, 0x4e] ++ [1] ++ [1] ++ 21 :: List.replicate 21 7)) ++
      ([0x63, 2, 0x40] ++ List.replicate 64 8 ++ [32] ++ List.replicate 32 9)], [[1, 37] ++ (List.replicate 32 6 ++ [4] ++ [1] ++ [2, 0, 1]) ++ [0]],
    by simp, by decide, by simp, rfl, v1, .cons ?_ .nil, .cons ?_ .nil, by decide, by decide, by decide, by decide, ?_⟩
  · refine ⟨[1], 21 :: List.replicate 21 7, _, _, _, _, rfl, rfl, v2, rfl, rfl, ⟨by decide, by decide, rfl⟩, rfl, ⟨by decide, by decide, rfl⟩,
      ⟨by decide, by decide, rfl⟩, .single 0x63 (List.replicate 64 8) (List.replicate 32 9) rfl rfl (by decide) (by simp), by decide +kernel⟩
  · exact ⟨[0, 1], _, rfl, v3, ⟨by decide, by decide, rfl⟩, ⟨by decide, by decide, rfl⟩, by decide +kernel⟩
  · decide +kernel

/-- Where C120 fails (2): the length byte of a single-key witness is not looked at: texts with any other number from 2 on in its place are read as
the same transaction. -/
theorem C120_witness_violated : Bytom.decodeRaw (c120Text 0x63) = .ok c120Tx ∧
    ∀ k : UInt8, 2 ≤ k → k ≠ 0x63 → c120Text k ≠ c120Text 0x63 ∧ Bytom.decodeRaw (c120Text k) = .ok c120Tx := by
  refine ⟨(C120_unique_partial _ _ _ _ c120_isTx c120_isTx).1, ?_⟩
  apply Hex.u8_forall
  decide +kernel

/-- Where C120 fails (3): a text cut off inside the time range makes the decoder panic instead of returning an error. -/
theorem C120_cut_violated (hs : Bytes) (hne : hs ≠ []) (hh : ∀ h ∈ hs, (0x80 : UInt8) ≤ h) : Bytom.decodeRaw ([7, 1] ++ hs) = .panic := by
  have hscan : ∀ hs : Bytes, (∀ h ∈ hs, (0x80 : UInt8) ≤ h) → Bytom.scanUvarint hs = .panic := by
    intro hs
    induction hs with
    | nil => intro _; rfl
    | cons x hs ih =>
      intro h
      unfold Bytom.scanUvarint
      rw [if_neg (by rw [UInt8.not_lt]; exact h x (by simp)), ih (fun y hy => h y (by simp [hy]))]
      rfl
  have hread : Bytom.readUvarint hs = .panic := by
    rcases hs with _ | ⟨x, hs⟩
    · exact absurd rfl hne
    · exact hscan _ hh
  show Res.bind (Bytom.readUvarint hs) _ = _
  rw [hread]
  rfl

example : ([0x80, 0xff] : Bytes) ≠ [] ∧ ∀ h ∈ ([0x80, 0xff] : Bytes), (0x80 : UInt8) ≤ h := by decide

example : ∃ rest t, IsTx true (7 :: rest) t := ⟨_, _, c120_isTx⟩

end Verif
