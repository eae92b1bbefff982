import Verif.Props.CombinePanic
import Verif.Spec.Combine
import Verif.Lemmas.Frame
import Verif.Lemmas.HyperCash
import Verif.Lemmas.OwPath
import Verif.Props.Alien
import Verif.Props.Mateverse

/-! C142: the packages with inputs and outputs. -/

namespace Verif
open Verif.Spec Verif.Spec.Crash Verif.Spec.Combine Verif.Spec.Eip55

namespace CombinePanic
open CreatePanic

theorem split_of : ∀ (sep : UInt8) (rest : List Bytes) (first : Bytes), sep ∉ first → (∀ p ∈ rest, sep ∉ p) →
    OwKeychain.splitOn sep (first ++ rest.flatMap (fun p => sep :: p)) = first :: rest
  | sep, [], first, h1, _ => by simpa using OwKeychain.splitOn_none sep first h1
  | sep, p :: rest, first, h1, h2 => by
    rw [List.flatMap_cons, List.cons_append, OwKeychain.splitOn_append sep first h1,
      split_of sep rest p (h2 p (by simp)) (fun q hq => h2 q (by simp [hq]))]

theorem split_iff (sep : UInt8) (text first : Bytes) (rest : List Bytes) :
    OwKeychain.splitOn sep text = first :: rest ↔ Parts sep text first rest := by
  constructor
  · intro h
    obtain ⟨a, l, h1, h2⟩ := Verge.splitOn_inv sep text
    rw [h1] at h
    cases h
    exact h2
  · rintro ⟨rfl, h1, h2⟩
    exact split_of sep rest first h1 h2

theorem split_any (sep : UInt8) (text : Bytes) : ∃ first rest, OwKeychain.splitOn sep text = first :: rest ∧ Parts sep text first rest := by
  obtain ⟨a, l, h1, h2⟩ := Verge.splitOn_inv sep text
  exact ⟨a, l, h1, h2⟩

theorem encodeSig_ne_err (sig : Bytes) (t : UInt8) : Btc.encodeSig sig t ≠ .err := by
  unfold Btc.encodeSig slice
  split
  · rw [Res.bind_ok]
    cases h : Btc.derBody ((sig.take 32).drop 0) with
    | err => exact absurd h (der_ne_err _)
    | panic => simp
    | ok r =>
      rw [Res.bind_ok]
      cases h : Btc.derBody (sig.drop 32) with
      | err => exact absurd h (der_ne_err _)
      | panic => simp
      | ok r => simp
  · simp

theorem script_panic (sp : HyperCash.SigPub) : HyperCash.encodeToScript sp = .panic ↔ Unwritable sp.sig := by
  unfold HyperCash.encodeToScript Btc.encodeSigPub
  rw [DecPanic.bind_panic _ _ (by intro a; simp), DecPanic.bind_panic _ _ (by intro a; simp), encodeSig_panic]

theorem script_ok {sp : HyperCash.SigPub} (h : ¬ Unwritable sp.sig) : ∃ b, HyperCash.encodeToScript sp = .ok b := by
  cases hb : HyperCash.encodeToScript sp with
  | ok b => exact ⟨b, rfl⟩
  | panic => exact absurd ((script_panic sp).mp hb) h
  | err =>
    unfold HyperCash.encodeToScript Btc.encodeSigPub at hb
    cases he : Btc.encodeSig sp.sig 1 with
    | err => exact absurd he (encodeSig_ne_err _ _)
    | panic => rw [he] at hb; cases hb
    | ok x => rw [he] at hb; cases hb

theorem vergeSig_panic (sp : Verge.SigPub) : sp.toBytes = .panic ↔ Unwritable sp.sig := by
  unfold Verge.SigPub.toBytes
  rw [DecPanic.bind_panic _ _ (by intro a; simp), encodeSig_panic]

theorem vergeSig_ne_err (sp : Verge.SigPub) : sp.toBytes ≠ .err := by
  unfold Verge.SigPub.toBytes
  cases he : Btc.encodeSig sp.sig 1 with
  | err => exact absurd he (encodeSig_ne_err _ _)
  | panic => simp
  | ok x => simp

/-- The signatures of Verge, Vollar and Aliencoin for the inputs from number `k` on. -/
def Right (E : Btc.Curve) (f : Nat → Bytes) (q : Verge.SigPub × Nat) : Prop :=
  E.verify ((E.decompress q.1.pub).drop 1) (f q.2) q.1.sig = true

theorem signLoop_spec (E : Btc.Curve) (f : Nat → Bytes) : ∀ (sps : List Verge.SigPub) (is : List Verge.TxIn) (k : Nat), sps.length = is.length →
    (Verge.signLoop E ((List.range' k is.length).map fun j => Hex.encode (f j)) sps is = .panic ↔
      FirstBad (fun q => ¬ E.decompress q.1.pub = [] ∧ Right E f q) (fun q => E.decompress q.1.pub = []) (sps.zipIdx k)) ∧
    (∀ l, Verge.signLoop E ((List.range' k is.length).map fun j => Hex.encode (f j)) sps is = .ok l →
      (∀ q ∈ sps.zipIdx k, ¬ E.decompress q.1.pub = [] ∧ Right E f q) ∧ l.map (·.sigPub) = sps.map some) ∧
    ((∀ q ∈ sps.zipIdx k, ¬ E.decompress q.1.pub = [] ∧ Right E f q) →
      ∃ l, Verge.signLoop E ((List.range' k is.length).map fun j => Hex.encode (f j)) sps is = .ok l)
  | [], [], k, _ => by
    refine ⟨iff_of_false (by simp [Verge.signLoop]) ?_, ?_, ?_⟩
    · rintro ⟨b, x, a, h, _⟩; simp at h
    · intro l h; simp [Verge.signLoop] at h; subst h; simp
    · intro _; exact ⟨[], by simp [Verge.signLoop]⟩
  | sp :: sps, i :: is, k, hl => by
    obtain ⟨h1, h2, h3⟩ := signLoop_spec E f sps is (k + 1) (by simpa using hl)
    have hstep : Verge.signLoop E ((List.range' k (i :: is).length).map fun j => Hex.encode (f j)) (sp :: sps) (i :: is) =
        (if E.decompress sp.pub = [] then .panic else if E.verify ((E.decompress sp.pub).drop 1) (f k) sp.sig = true then
          (Verge.signLoop E ((List.range' (k + 1) is.length).map fun j => Hex.encode (f j)) sps is >>= fun r =>
            .ok ({ i with sigPub := some sp } :: r)) else .err) := by
      rw [List.length_cons, List.range'_succ, List.map_cons, Verge.signLoop, tail_slice]
      by_cases hk : E.decompress sp.pub = []
      · rw [if_pos hk, if_pos hk]; rfl
      · rw [if_neg hk, if_neg hk, Res.bind_ok, Hex.decodePrefix_encode]
    rw [hstep, List.zipIdx_cons]
    by_cases hk : E.decompress sp.pub = []
    · rw [if_pos hk]
      refine ⟨iff_of_true rfl ⟨[], (sp, k), _, rfl, by simp, hk⟩, by simp, ?_⟩
      intro h; exact absurd hk (h (sp, k) (by simp)).1
    · rw [if_neg hk]
      by_cases hv : E.verify ((E.decompress sp.pub).drop 1) (f k) sp.sig = true
      · rw [if_pos hv, DecPanic.bind_panic _ _ (by intro a; simp), h1]
        refine ⟨⟨?_, ?_⟩, ?_, ?_⟩
        · rintro ⟨b, y, a, h, g1, g2⟩
          exact ⟨(sp, k) :: b, y, a, by rw [h]; rfl, by simpa using ⟨⟨hk, hv⟩, fun u v => g1 (u, v)⟩, g2⟩
        · rintro ⟨b, y, a, h, g1, g2⟩
          match b, h, g1 with
          | [], h, _ =>
            simp only [List.nil_append, List.cons.injEq] at h
            rw [← h.1] at g2; exact absurd g2 hk
          | z :: b, h, g1 =>
            simp only [List.cons_append, List.cons.injEq] at h
            exact ⟨b, y, a, h.2, fun w hw => g1 w (by simp [hw]), g2⟩
        · intro l h
          obtain ⟨r, hr, h⟩ := Res.bind_eq_ok.mp h
          cases h
          obtain ⟨g1, g2⟩ := h2 r hr
          refine ⟨?_, by simp [g2]⟩
          intro q hq
          rcases List.mem_cons.mp hq with rfl | hq
          · exact ⟨hk, hv⟩
          · exact g1 q hq
        · intro h
          obtain ⟨l, hl⟩ := h3 fun q hq => h q (by simp [hq])
          exact ⟨_, by rw [hl]; rfl⟩
      · rw [if_neg hv]
        refine ⟨iff_of_false (by simp) ?_, by simp, ?_⟩
        · rintro ⟨b, y, a, h, g1, g2⟩
          match b, h, g1 with
          | [], h, _ =>
            simp only [List.nil_append, List.cons.injEq] at h
            rw [← h.1] at g2; exact absurd g2 hk
          | z :: b, h, g1 =>
            simp only [List.cons_append, List.cons.injEq] at h
            have := (g1 z (by simp)).2
            rw [← h.1] at this; exact hv this
        · intro h; exact absurd (h (sp, k) (by simp)).2 hv
  | [], i :: is, k, hl => by simp at hl
  | sp :: sps, [], k, hl => by simp at hl

/-- Writing down signed inputs. -/
theorem write_panic {w : Verge.SigPub → Res Bytes} {wi : Verge.TxIn → Res Bytes} {P : Verge.SigPub → Prop} (hP : ∀ sp, w sp = .panic ↔ P sp)
    (he : ∀ sp, w sp ≠ .err) (hw : ∀ i sp, i.sigPub = some sp → wi i = w sp >>= fun s => .ok (i.txid ++ i.vout ++ s ++ i.sequence)) :
    ∀ (is : List Verge.TxIn) (sps : List Verge.SigPub), is.map (·.sigPub) = sps.map some →
    (HyperCash.mapAll wi is = .panic ↔ ∃ sp ∈ sps, P sp)
  | [], [], _ => by simp [HyperCash.mapAll]
  | i :: is, sp :: sps, h => by
    simp only [List.map_cons, List.cons.injEq] at h
    rw [HyperCash.mapAll, hw i sp h.1]
    have ih := write_panic hP he hw is sps h.2
    have hp := hP sp
    simp only [List.mem_cons, exists_eq_or_imp]
    cases hx : w sp with
    | err => exact absurd hx (he sp)
    | panic => exact iff_of_true rfl (.inl (hp.mp hx))
    | ok s =>
      rw [hx] at hp
      have : ¬ P sp := fun h => by have := hp.mpr h; cases this
      simp only [this, false_or, Res.bind_ok]
      rw [DecPanic.bind_panic _ _ (by intro a; simp), ih]
  | [], sp :: sps, h => by simp at h
  | i :: is, [], h => by simp at h

theorem vergeIn_write (i : Verge.TxIn) (sp : Verge.SigPub) (h : i.sigPub = some sp) :
    i.toBytes = sp.toBytes >>= fun s => .ok (i.txid ++ i.vout ++ s ++ i.sequence) := by
  unfold Verge.TxIn.toBytes Verge.TxIn.scriptBytes
  rw [h]

theorem readMany_ne_panic {α : Type} {f : Bytes → Res (α × Bytes)} (hf : ∀ b, f b ≠ .panic) : ∀ n b, Verge.readMany f n b ≠ .panic
  | 0, b => by simp [Verge.readMany]
  | n + 1, b => by
    unfold Verge.readMany
    exact bind_ne (hf _) fun a => bind_ne (readMany_ne_panic hf n _) fun a => by simp

theorem readIn_ne_panic (b : Bytes) : Verge.readIn b ≠ .panic := by
  unfold Verge.readIn
  refine bind_ne (Btc.takeN_ne_panic _ _) fun a => bind_ne (Btc.takeN_ne_panic _ _) fun a => bind_ne (Btc.take1_ne_panic _) fun a => ?_
  dsimp only
  split
  · simp
  · exact bind_ne (Btc.takeN_ne_panic _ _) fun a => by simp

theorem readScript_ne_panic (b : Bytes) : Verge.readScript b ≠ .panic := by
  unfold Verge.readScript
  exact bind_ne (Btc.take1_ne_panic _) fun a => bind_ne (Btc.takeN_ne_panic _ _) fun a => by simp

theorem readOut_ne_panic (b : Bytes) : Verge.readOut b ≠ .panic := by
  unfold Verge.readOut
  exact bind_ne (Btc.takeN_ne_panic _ _) fun a => bind_ne (readScript_ne_panic _) fun a => by simp

theorem vergeDecode_ne_panic (text : Bytes) : Verge.decodeRaw text ≠ .panic := by
  unfold Verge.decodeRaw
  split
  · simp
  · split
    · simp
    · refine bind_ne (Hex.decode_ne_panic _) fun a => bind_ne (Btc.takeN_ne_panic _ _) fun a => bind_ne (Btc.takeN_ne_panic _ _) fun a =>
        bind_ne (Btc.take1_ne_panic _) fun a => bind_ne (readMany_ne_panic readIn_ne_panic _ _) fun a => bind_ne (Btc.take1_ne_panic _) fun a =>
        bind_ne (readMany_ne_panic readOut_ne_panic _ _) fun a => bind_ne (Btc.takeN_ne_panic _ _) fun a => ?_
      dsimp only
      split_ifs <;> simp

theorem alienDecode_ne_panic (text : Bytes) : Alien.decodeRaw text ≠ .panic := by
  unfold Alien.decodeRaw
  split
  · simp
  · split
    · simp
    · refine bind_ne (Hex.decode_ne_panic _) fun a => bind_ne (Btc.takeN_ne_panic _ _) fun a =>
        bind_ne (Btc.take1_ne_panic _) fun a => bind_ne (readMany_ne_panic readIn_ne_panic _ _) fun a => bind_ne (Btc.take1_ne_panic _) fun a =>
        bind_ne (readMany_ne_panic readOut_ne_panic _ _) fun a => bind_ne (Btc.takeN_ne_panic _ _) fun a => ?_
      dsimp only
      split_ifs <;> simp

theorem vollarDecode_ne_panic (text : Bytes) : Vollar.decodeRaw text ≠ .panic := by
  have ho : ∀ b, Vollar.readOut b ≠ .panic := by
    intro b
    unfold Vollar.readOut
    exact bind_ne (Btc.takeN_ne_panic _ _) fun a => bind_ne (Btc.take1_ne_panic _) fun a => bind_ne (readScript_ne_panic _) fun a =>
      bind_ne (Btc.takeN_ne_panic _ _) fun a => by simp
  unfold Vollar.decodeRaw
  split
  · simp
  · split
    · simp
    · refine bind_ne (Hex.decode_ne_panic _) fun a => bind_ne (Btc.takeN_ne_panic _ _) fun a =>
        bind_ne (Btc.take1_ne_panic _) fun a => bind_ne (Btc.take1_ne_panic _) fun a => bind_ne (readMany_ne_panic readIn_ne_panic _ _) fun a =>
        bind_ne (Btc.take1_ne_panic _) fun a => bind_ne (readMany_ne_panic ho _ _) fun a => ?_
      dsimp only
      split_ifs <;> simp

/-- The loop of Aliencoin after `i` steps looks at the place `2 * i` of the number. -/
theorem alienStrip_panic (r : Bytes) : ∀ (n i : Nat), Alien.strip n i (r.drop i) = .panic ↔
    ∃ m, i ≤ m ∧ m < i + n ∧ r.length ≤ 2 * m ∧ ∀ j x, i ≤ j → j < m → r[2 * j]? = some x → x = 0
  | 0, i => by
    refine iff_of_false (by simp [Alien.strip]) ?_
    rintro ⟨m, h1, h2, _⟩; omega
  | n + 1, i => by
    have ih := alienStrip_panic r n (i + 1)
    unfold Alien.strip index
    rw [List.getElem?_drop, show i + i = 2 * i from by omega]
    cases hx : r[2 * i]? with
    | none =>
      refine iff_of_true rfl ⟨i, by omega, by omega, by simpa using hx, ?_⟩
      intro j x h1 h2; omega
    | some c =>
      have hlt : 2 * i < r.length := (List.getElem?_eq_some_iff.mp hx).1
      simp only [Res.bind_ok, List.drop_drop]
      by_cases hc : c = 0
      · rw [if_pos hc, ih]
        constructor
        · rintro ⟨m, h1, h2, h3, h4⟩
          refine ⟨m, by omega, by omega, h3, ?_⟩
          intro j x g1 g2 g3
          rcases Nat.eq_or_lt_of_le g1 with rfl | g1
          · rw [hx] at g3; cases g3; exact hc
          · exact h4 j x g1 g2 g3
        · rintro ⟨m, h1, h2, h3, h4⟩
          refine ⟨m, by omega, by omega, h3, fun j x g1 g2 => h4 j x (by omega) g2⟩
      · rw [if_neg hc]
        refine iff_of_false (by simp) ?_
        rintro ⟨m, h1, h2, h3, h4⟩
        exact hc (h4 i c (by omega) (by omega) hx)

theorem alienDer_panic (r : Bytes) : Alien.derBody r = .panic ↔ EvenZero r := by
  have h := alienStrip_panic r 32 0
  rw [List.drop_zero] at h
  have he : (∃ m, 0 ≤ m ∧ m < 0 + 32 ∧ r.length ≤ 2 * m ∧ ∀ j x, 0 ≤ j → j < m → r[2 * j]? = some x → x = 0) ↔ EvenZero r := by
    unfold EvenZero
    constructor
    · rintro ⟨m, _, h1, h2, h3⟩
      refine ⟨by omega, fun i x hx => h3 i x (by omega) ?_ hx⟩
      have := (List.getElem?_eq_some_iff.mp hx).1
      omega
    · rintro ⟨h1, h2⟩
      exact ⟨31, by omega, by omega, by omega, fun j x _ _ => h2 j x⟩
  unfold Alien.derBody
  cases r with
  | nil => exact iff_of_true rfl ⟨by simp, by simp⟩
  | cons c t =>
    simp only [index, List.getElem?_cons_zero, Res.bind_ok]
    by_cases hc : c ≥ 0x80
    · rw [if_pos hc]
      refine iff_of_false (by simp) ?_
      rintro ⟨_, h2⟩
      have := h2 0 c (by simp)
      subst this
      exact absurd hc (by decide)
    · rw [if_neg hc, h, he]

theorem alienStrip_ne_err : ∀ (n i : Nat) (r : Bytes), Alien.strip n i r ≠ .err
  | 0, i, r => by simp [Alien.strip]
  | n + 1, i, r => by
    unfold Alien.strip index
    split
    · rw [Res.bind_ok]
      split
      · exact alienStrip_ne_err n _ _
      · simp
    · simp

theorem alienDer_ne_err (r : Bytes) : Alien.derBody r ≠ .err := by
  unfold Alien.derBody index
  split
  · rw [Res.bind_ok]
    split
    · simp
    · exact alienStrip_ne_err _ _ _
  · simp

theorem alienSig_panic (sp : Verge.SigPub) : (Alien.sigPubBytes sp = .panic ↔ Unwritable2 sp.sig) ∧ Alien.sigPubBytes sp ≠ .err := by
  unfold Alien.sigPubBytes Unwritable2
  by_cases hl : sp.sig.length < 32
  · have : slice sp.sig 0 32 = .panic := by unfold slice; rw [if_neg (by omega)]
    rw [this]
    exact ⟨iff_of_true rfl (.inl hl), by simp⟩
  · rw [slice_ok (by omega) (by omega), Res.bind_ok, List.drop_zero]
    have h1 := alienDer_panic (sp.sig.take 32)
    have h2 := alienDer_panic (sp.sig.drop 32)
    rw [← h1, ← h2]
    simp only [hl, false_or]
    cases hr : Alien.derBody (sp.sig.take 32) with
    | err => exact absurd hr (alienDer_ne_err _)
    | panic => simp
    | ok r =>
      cases hs : Alien.derBody (sp.sig.drop 32) with
      | err => exact absurd hs (alienDer_ne_err _)
      | panic => simp
      | ok r => simp

theorem alienIn_write (i : Verge.TxIn) (sp : Verge.SigPub) (h : i.sigPub = some sp) :
    Alien.inToBytes i = Alien.sigPubBytes sp >>= fun s => .ok (i.txid ++ i.vout ++ s ++ i.sequence) := by
  unfold Alien.inToBytes
  rw [h]

end CombinePanic
open CombinePanic CreatePanic

/-- C142, Verge: for a text the decoder accepts, with one signature per input, the call panics exactly if a key that is not a point stands behind right
signatures only, or if all signatures are right and one of them has a number that is missing or zero. -/
theorem C142_verge (H : Hashes) (E : Btc.Curve) (text : Bytes) (sps : List Verge.SigPub) :
    Verge.verifyAndCombine H E text sps = .panic ↔ ∃ t locks, Verge.decodeRaw text = .ok (t, locks) ∧ sps ≠ [] ∧ sps.length = t.ins.length ∧
      let right := fun q : Verge.SigPub × Nat => ¬ E.decompress q.1.pub = [] ∧
        E.verify ((E.decompress q.1.pub).drop 1) (H.hash .doubleSha256 (t.hashData q.2)) q.1.sig = true
      (FirstBad right (fun q => E.decompress q.1.pub = []) sps.zipIdx ∨ (∀ q ∈ sps.zipIdx, right q) ∧ ∃ sp ∈ sps, Unwritable sp.sig) := by
  unfold Verge.verifyAndCombine
  cases hd : Verge.decodeRaw text with
  | panic => exact absurd hd (vergeDecode_ne_panic _)
  | err => simp
  | ok q =>
    obtain ⟨t, locks⟩ := q
    simp only [Res.bind_ok, Res.ok.injEq, Prod.mk.injEq]
    have e : (∃ t' locks', (t = t' ∧ locks = locks') ∧ sps ≠ [] ∧ sps.length = t'.ins.length ∧
        (FirstBad (fun q : Verge.SigPub × Nat => ¬ E.decompress q.1.pub = [] ∧
        E.verify ((E.decompress q.1.pub).drop 1) (H.hash .doubleSha256 (t'.hashData q.2)) q.1.sig = true) (fun q => E.decompress q.1.pub = []) sps.zipIdx ∨
        (∀ q ∈ sps.zipIdx, ¬ E.decompress q.1.pub = [] ∧
        E.verify ((E.decompress q.1.pub).drop 1) (H.hash .doubleSha256 (t'.hashData q.2)) q.1.sig = true) ∧ ∃ sp ∈ sps, Unwritable sp.sig)) ↔
        (sps ≠ [] ∧ sps.length = t.ins.length ∧
        (FirstBad (fun q : Verge.SigPub × Nat => ¬ E.decompress q.1.pub = [] ∧ Right E (fun k => H.hash .doubleSha256 (t.hashData k)) q)
          (fun q => E.decompress q.1.pub = []) sps.zipIdx ∨
        (∀ q ∈ sps.zipIdx, ¬ E.decompress q.1.pub = [] ∧ Right E (fun k => H.hash .doubleSha256 (t.hashData k)) q) ∧ ∃ sp ∈ sps, Unwritable sp.sig)) := by
      constructor
      · rintro ⟨_, _, ⟨rfl, rfl⟩, h⟩; exact h
      · intro h; exact ⟨_, _, ⟨rfl, rfl⟩, h⟩
    rw [e]
    by_cases hc : sps.length = 0 ∨ sps.length ≠ t.ins.length
    · rw [if_pos hc]
      refine iff_of_false (by simp) ?_
      rintro ⟨h1, h2, _⟩
      rcases hc with hc | hc
      · exact h1 (List.length_eq_zero_iff.mp hc)
      · exact hc h2
    · rw [if_neg hc]
      rw [not_or, not_not] at hc
      have hne : sps ≠ [] := fun h => hc.1 (by simp [h])
      obtain ⟨h1, h2, h3⟩ := signLoop_spec E (fun k => H.hash .doubleSha256 (t.hashData k)) sps t.ins 0 hc.2
      have hg : t.getHash H = (List.range' 0 t.ins.length).map fun j => Hex.encode (H.hash .doubleSha256 (t.hashData j)) := by
        unfold Verge.TxStruct.getHash
        rw [List.range_eq_range']
      rw [← hg] at h1 h2 h3
      simp only [hne, ne_eq, not_false_eq_true, true_and, hc.2]
      rw [← h1]
      cases hs : Verge.signLoop E (t.getHash H) sps t.ins with
      | panic => simp
      | err =>
        refine iff_of_false (by simp) ?_
        rintro (h | ⟨h, _⟩)
        · cases h
        · obtain ⟨l, hl⟩ := h3 h
          rw [hs] at hl; cases hl
      | ok l =>
        obtain ⟨g1, g2⟩ := h2 l hs
        have hw := write_panic vergeSig_panic vergeSig_ne_err vergeIn_write l sps g2
        simp only [Res.bind_ok, reduceCtorEq, false_or]
        rw [DecPanic.bind_panic _ _ (by intro a; simp)]
        unfold Verge.TxStruct.toBytes
        rw [DecPanic.bind_panic _ _ (by intro a; simp)]
        rw [hw]
        exact ⟨fun h => ⟨g1, h⟩, fun h => h.2⟩

/-- C142, Aliencoin: for a text the decoder accepts, with one signature per input, the call panics exactly if a key that is not a point stands behind right
signatures only, or if all signatures are right and one of them has a number that is zero in all even places, the other bytes being
anything. -/
theorem C142_alien (H : Hashes) (E : Btc.Curve) (text : Bytes) (sps : List Verge.SigPub) :
    Alien.verifyAndCombine H E text sps = .panic ↔ ∃ t locks, Alien.decodeRaw text = .ok (t, locks) ∧ sps ≠ [] ∧ sps.length = t.ins.length ∧
      let right := fun q : Verge.SigPub × Nat => ¬ E.decompress q.1.pub = [] ∧
        E.verify ((E.decompress q.1.pub).drop 1) (H.hash .doubleSha256 (Alien.hashData t q.2)) q.1.sig = true
      (FirstBad right (fun q => E.decompress q.1.pub = []) sps.zipIdx ∨ (∀ q ∈ sps.zipIdx, right q) ∧ ∃ sp ∈ sps, Unwritable2 sp.sig) := by
  unfold Alien.verifyAndCombine
  cases hd : Alien.decodeRaw text with
  | panic => exact absurd hd (alienDecode_ne_panic _)
  | err => simp
  | ok q =>
    obtain ⟨t, locks⟩ := q
    simp only [Res.bind_ok, Res.ok.injEq, Prod.mk.injEq]
    have e : (∃ t' locks', (t = t' ∧ locks = locks') ∧ sps ≠ [] ∧ sps.length = t'.ins.length ∧
        (FirstBad (fun q : Verge.SigPub × Nat => ¬ E.decompress q.1.pub = [] ∧
        E.verify ((E.decompress q.1.pub).drop 1) (H.hash .doubleSha256 (Alien.hashData t' q.2)) q.1.sig = true) (fun q => E.decompress q.1.pub = []) sps.zipIdx ∨
        (∀ q ∈ sps.zipIdx, ¬ E.decompress q.1.pub = [] ∧
        E.verify ((E.decompress q.1.pub).drop 1) (H.hash .doubleSha256 (Alien.hashData t' q.2)) q.1.sig = true) ∧ ∃ sp ∈ sps, Unwritable2 sp.sig)) ↔
        (sps ≠ [] ∧ sps.length = t.ins.length ∧
        (FirstBad (fun q : Verge.SigPub × Nat => ¬ E.decompress q.1.pub = [] ∧ Right E (fun k => H.hash .doubleSha256 (Alien.hashData t k)) q)
          (fun q => E.decompress q.1.pub = []) sps.zipIdx ∨
        (∀ q ∈ sps.zipIdx, ¬ E.decompress q.1.pub = [] ∧ Right E (fun k => H.hash .doubleSha256 (Alien.hashData t k)) q) ∧ ∃ sp ∈ sps, Unwritable2 sp.sig)) := by
      constructor
      · rintro ⟨_, _, ⟨rfl, rfl⟩, h⟩; exact h
      · intro h; exact ⟨_, _, ⟨rfl, rfl⟩, h⟩
    rw [e]
    by_cases hc : sps.length = 0 ∨ sps.length ≠ t.ins.length
    · rw [if_pos hc]
      refine iff_of_false (by simp) ?_
      rintro ⟨h1, h2, _⟩
      rcases hc with hc | hc
      · exact h1 (List.length_eq_zero_iff.mp hc)
      · exact hc h2
    · rw [if_neg hc]
      rw [not_or, not_not] at hc
      have hne : sps ≠ [] := fun h => hc.1 (by simp [h])
      obtain ⟨h1, h2, h3⟩ := signLoop_spec E (fun k => H.hash .doubleSha256 (Alien.hashData t k)) sps t.ins 0 hc.2
      have hg : Alien.getHash H t = (List.range' 0 t.ins.length).map fun j => Hex.encode (H.hash .doubleSha256 (Alien.hashData t j)) := by
        unfold Alien.getHash
        rw [List.range_eq_range']
      rw [← hg] at h1 h2 h3
      simp only [hne, ne_eq, not_false_eq_true, true_and, hc.2]
      rw [← h1]
      cases hs : Verge.signLoop E (Alien.getHash H t) sps t.ins with
      | panic => simp
      | err =>
        refine iff_of_false (by simp) ?_
        rintro (h | ⟨h, _⟩)
        · cases h
        · obtain ⟨l, hl⟩ := h3 h
          rw [hs] at hl; cases hl
      | ok l =>
        obtain ⟨g1, g2⟩ := h2 l hs
        have hw := write_panic (fun sp => (alienSig_panic sp).1) (fun sp => (alienSig_panic sp).2) alienIn_write l sps g2
        simp only [Res.bind_ok, reduceCtorEq, false_or]
        rw [DecPanic.bind_panic _ _ (by intro a; simp)]
        unfold Alien.toBytes
        rw [DecPanic.bind_panic _ _ (by intro a; simp)]
        rw [hw]
        exact ⟨fun h => ⟨g1, h⟩, fun h => h.2⟩

/-- C142, Vollar: for a text the decoder accepts, with hexadecimal scripts and one signature per input, the call panics exactly if one of the keys is not
a point or one of the signatures has a number that is missing or zero, whether the signatures are right or not. -/
theorem C142_vollar (H : Hashes) (E : Btc.Curve) (text : Bytes) (sps : List Verge.SigPub) :
    Vollar.verifyAndCombine H E text sps = .panic ↔ ∃ t locks, Vollar.decodeRaw text = .ok (t, locks) ∧ sps.length = t.ins.length ∧
      (∀ l ∈ locks, ∃ b, HexText l b) ∧ ∃ sp ∈ sps, E.decompress sp.pub = [] ∨ Unwritable sp.sig := by
  have hlocks : ∀ (is : List Verge.TxIn) (ls : List Bytes), is.length = ls.length →
      Vollar.setLocks is ls ≠ .panic ∧ ((∃ l, Vollar.setLocks is ls = .ok l) ↔ ∀ l ∈ ls, ∃ b, HexText l b) ∧
      ∀ l, Vollar.setLocks is ls = .ok l → l.length = is.length := by
    intro is
    induction is with
    | nil =>
      intro ls h
      have : ls = [] := List.length_eq_zero_iff.mp (by simpa using h.symm)
      subst this
      simp [Vollar.setLocks]
    | cons i is ih =>
      intro ls h
      cases ls with
      | nil => simp at h
      | cons l ls =>
        obtain ⟨i1, i2, i3⟩ := ih ls (by simpa using h)
        unfold Vollar.setLocks
        cases hl : Hex.decode l with
        | panic => exact absurd hl (Hex.decode_ne_panic _)
        | err =>
          refine ⟨by simp, iff_of_false (by simp) ?_, by simp⟩
          intro hc
          obtain ⟨b, hb⟩ := hc l (by simp)
          rw [(Eip.decode_iff _ _).mpr hb] at hl; cases hl
        | ok b =>
          have hb : ∃ b, HexText l b := ⟨b, (Eip.decode_iff _ _).mp hl⟩
          simp only [Res.bind_ok, List.forall_mem_cons, hb, true_and]
          rw [← i2]
          cases hs : Vollar.setLocks is ls with
          | panic => exact absurd hs i1
          | err => simp
          | ok x =>
            have := i3 x hs
            simp [this]
  have hsign : ∀ (hs : List Bytes) (sps : List Verge.SigPub) (is : List Verge.TxIn), hs.length = is.length → sps.length = is.length →
      Vollar.signLoop E hs sps is ≠ .err ∧ (Vollar.signLoop E hs sps is = .panic ↔ ∃ sp ∈ sps, E.decompress sp.pub = []) ∧
      ∀ p l, Vollar.signLoop E hs sps is = .ok (p, l) → l.map (·.sigPub) = sps.map some := by
    intro hs sps
    induction sps generalizing hs with
    | nil =>
      intro is h1 h2
      have : is = [] := List.length_eq_zero_iff.mp (by simpa using h2.symm)
      subst this
      have : hs = [] := List.length_eq_zero_iff.mp (by simpa using h1)
      subst this
      simp [Vollar.signLoop]
    | cons sp sps ih =>
      intro is h1 h2
      cases is with
      | nil => simp at h2
      | cons i is =>
        cases hs with
        | nil => simp at h1
        | cons h hs =>
          obtain ⟨i1, i2, i3⟩ := ih hs is (by simpa using h1) (by simpa using h2)
          unfold Vollar.signLoop
          rw [tail_slice]
          by_cases hk : E.decompress sp.pub = []
          · rw [if_pos hk]
            exact ⟨by simp, iff_of_true rfl ⟨sp, by simp, hk⟩, by simp⟩
          · rw [if_neg hk, Res.bind_ok]
            simp only [List.mem_cons, exists_eq_or_imp, hk, false_or]
            rw [← i2]
            cases hx : Vollar.signLoop E hs sps is with
            | err => exact absurd hx i1
            | panic => simp
            | ok y =>
              have := i3 y.1 y.2 hx
              simp [this]
  unfold Vollar.verifyAndCombine
  cases hd : Vollar.decodeRaw text with
  | panic => exact absurd hd (vollarDecode_ne_panic _)
  | err => simp
  | ok q =>
    obtain ⟨t, locks⟩ := q
    have hll : t.ins.length = locks.length ∧ locks ≠ [] := by
      unfold Vollar.decodeRaw at hd
      split at hd
      · cases hd
      · split at hd
        · cases hd
        · rename_i first rest hne
          obtain ⟨_, _, hd⟩ := Res.bind_eq_ok.mp hd
          obtain ⟨_, _, hd⟩ := Res.bind_eq_ok.mp hd
          obtain ⟨_, _, hd⟩ := Res.bind_eq_ok.mp hd
          obtain ⟨_, _, hd⟩ := Res.bind_eq_ok.mp hd
          obtain ⟨_, _, hd⟩ := Res.bind_eq_ok.mp hd
          obtain ⟨_, _, hd⟩ := Res.bind_eq_ok.mp hd
          obtain ⟨_, _, hd⟩ := Res.bind_eq_ok.mp hd
          dsimp only at hd
          split at hd
          · cases hd
          · split at hd
            · cases hd
            · rename_i hlen
              cases hd
              exact ⟨by simpa using hlen, fun h => hne (by simp [h])⟩
    simp only [Res.bind_ok, Res.ok.injEq, Prod.mk.injEq]
    have e : (∃ t' locks', (t = t' ∧ locks = locks') ∧ sps.length = t'.ins.length ∧
        (∀ l ∈ locks', ∃ b, HexText l b) ∧ ∃ sp ∈ sps, E.decompress sp.pub = [] ∨ Unwritable sp.sig) ↔ (sps.length = t.ins.length ∧
        (∀ l ∈ locks, ∃ b, HexText l b) ∧ ∃ sp ∈ sps, E.decompress sp.pub = [] ∨ Unwritable sp.sig) := by
      constructor
      · rintro ⟨_, _, ⟨rfl, rfl⟩, h⟩; exact h
      · intro h; exact ⟨_, _, ⟨rfl, rfl⟩, h⟩
    rw [e]
    by_cases hc : t.ins.length ≠ sps.length ∨ t.ins.length ≠ locks.length
    · rw [if_pos hc]
      refine iff_of_false (by simp) ?_
      rintro ⟨h, _⟩
      rcases hc with hc | hc
      · exact hc h.symm
      · exact hc hll.1
    · rw [if_neg hc]
      rw [not_or, not_not] at hc
      obtain ⟨l1, l2, l3⟩ := hlocks t.ins locks hll.1
      rw [← l2]
      simp only [hc.1.symm, true_and]
      cases hs : Vollar.setLocks t.ins locks with
      | panic => exact absurd hs l1
      | err => simp
      | ok is =>
        have hlen := l3 is hs
        have hpos : is.length ≠ 0 := by
          rw [hlen, hll.1]
          simpa using hll.2
        simp only [Res.bind_ok, Res.ok.injEq, exists_eq', true_and]
        unfold Vollar.TxStruct.getHash
        rw [if_neg hpos, Res.bind_ok]
        dsimp only
        obtain ⟨s1, s2, s3⟩ := hsign (is.map fun i => Hex.encode (H.hash .doubleSha256 (Vollar.TxStruct.hashData H { t with ins := is } i))) sps is (by simp) (by omega)
        cases hx : Vollar.signLoop E (is.map fun i => Hex.encode (H.hash .doubleSha256 (Vollar.TxStruct.hashData H { t with ins := is } i))) sps is with
        | err => exact absurd hx s1
        | panic =>
          obtain ⟨sp, h1, h2⟩ := s2.mp hx
          exact iff_of_true rfl ⟨sp, h1, .inl h2⟩
        | ok y =>
          obtain ⟨pass, l⟩ := y
          have hno : ∀ sp ∈ sps, ¬ E.decompress sp.pub = [] := fun sp h1 h2 => by
            have := s2.mpr ⟨sp, h1, h2⟩
            rw [hx] at this; cases this
          have hw := write_panic vergeSig_panic vergeSig_ne_err vergeIn_write l sps (s3 pass l hx)
          simp only [Res.bind_ok]
          rw [DecPanic.bind_panic _ _ (by intro a; simp)]
          unfold Vollar.TxStruct.toBytes
          rw [DecPanic.bind_panic _ _ (by intro a; simp)]
          refine Iff.trans hw ?_
          constructor
          · rintro ⟨sp, h1, h2⟩; exact ⟨sp, h1, .inr h2⟩
          · rintro ⟨sp, h1, h2 | h2⟩
            · exact absurd h2 (hno sp h1)
            · exact ⟨sp, h1, h2⟩

end Verif
