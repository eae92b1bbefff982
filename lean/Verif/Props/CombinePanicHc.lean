import Verif.Props.CombinePanicUtxo

/-! C142: HyperCash and Metaverse. -/

namespace Verif
open Verif.Spec Verif.Spec.Crash Verif.Spec.Combine Verif.Spec.Eip55

namespace CombinePanic
open CreatePanic

theorem firstBad_nil {α : Type} {good bad : α → Prop} : ¬ FirstBad good bad [] := by
  rintro ⟨b, x, a, h, _⟩; simp at h

theorem firstBad_cons {α : Type} {good bad : α → Prop} {x : α} {xs : List α} :
    FirstBad good bad (x :: xs) ↔ bad x ∨ (good x ∧ FirstBad good bad xs) := by
  constructor
  · rintro ⟨b, y, a, h, h1, h2⟩
    match b, h, h1 with
    | [], h, _ =>
      simp only [List.nil_append, List.cons.injEq] at h
      rw [← h.1] at h2; exact .inl h2
    | z :: b, h, h1 =>
      simp only [List.cons_append, List.cons.injEq] at h
      refine .inr ⟨by rw [h.1]; exact h1 z (by simp), b, y, a, h.2, fun w hw => h1 w (by simp [hw]), h2⟩
  · rintro (h | ⟨hg, b, y, a, h, h1, h2⟩)
    · exact ⟨[], x, xs, rfl, by simp, h⟩
    · exact ⟨x :: b, y, a, by rw [h]; rfl, by simpa using ⟨hg, h1⟩, h2⟩

theorem witnessParts_eq' {n k : Nat} (h : k < n) (lock : Bytes) :
    HyperCash.witnessParts n k lock = List.replicate k 0 ++ lock ++ List.replicate (n - 1 - k) 0 := by
  have zero : ∀ (s m : Nat), (∀ j, s ≤ j → j < s + m → j ≠ k) →
      (List.range' s m).flatMap (fun j => if j = k then lock else [0]) = List.replicate m 0 := by
    intro s m
    induction m generalizing s with
    | zero => intro _; rfl
    | succ m ih =>
      intro hj
      rw [List.range'_succ, List.flatMap_cons, if_neg (hj s (by omega) (by omega)), ih (s + 1) (fun j h1 h2 => hj j (by omega) (by omega))]
      rfl
  unfold HyperCash.witnessParts
  have e : List.range n = List.range' 0 k ++ (k :: List.range' (k + 1) (n - 1 - k)) := by
    rw [← List.range'_succ, List.range_eq_range']
    have := List.range'_append_1 (s := 0) (m := k) (n := n - 1 - k + 1)
    rw [Nat.zero_add] at this
    rw [this, show k + (n - 1 - k + 1) = n from by omega]
  rw [e, List.flatMap_append, List.flatMap_cons, if_pos rfl, zero 0 k (by intros; omega), zero (k + 1) _ (by intros; omega), List.append_assoc]

theorem set_eq {tx : Bytes} (h : 4 ≤ tx.length) : (tx.set 2 1).set 3 0 = tx.take 2 ++ [1, 0] ++ tx.drop 4 := by
  match tx, h with
  | a :: b :: c :: d :: r, _ => rfl
  | [], h => simp at h
  | [_], h => simp at h
  | [_, _], h => simp at h
  | [_, _, _], h => simp at h

/-- The two scripts of an input and whether its key and signature are right. -/
def HcBad (H : Hashes) (E : Btc.Curve) (tx : Bytes) (n : Nat) (q : (Bytes × HyperCash.SigPub) × Nat) : Prop :=
  ∃ a b lock, Parts 0x2f q.1.1 a [b] ∧ HexText a lock ∧ (E.decompress q.1.2.pub = [] ∨
    E.verify ((E.decompress q.1.2.pub).drop 1) (hcMessage (H.hash .blake256) tx lock n q.2) q.1.2.sig = true ∧ (∃ u, HexText b u) ∧
      Unwritable q.1.2.sig)

def HcGood (H : Hashes) (E : Btc.Curve) (tx : Bytes) (n : Nat) (q : (Bytes × HyperCash.SigPub) × Nat) : Prop :=
  ∃ a b lock u, Parts 0x2f q.1.1 a [b] ∧ HexText a lock ∧ HexText b u ∧ ¬ E.decompress q.1.2.pub = [] ∧
    E.verify ((E.decompress q.1.2.pub).drop 1) (hcMessage (H.hash .blake256) tx lock n q.2) q.1.2.sig = true ∧ ¬ Unwritable q.1.2.sig

theorem hc_loop (H : Hashes) (E : Btc.Curve) (tx : Bytes) (htx : 4 ≤ tx.length) (n : Nat) : ∀ (ds : List Bytes) (sps : List HyperCash.SigPub) (k : Nat) (ret : Bytes),
    ds.length = sps.length → k + ds.length = n →
    (HyperCash.combineLoop H E n (H.hash .blake256 ((tx.set 2 1).set 3 0)) k ds sps ret = .panic ↔
      FirstBad (HcGood H E tx n) (HcBad H E tx n) ((ds.zip sps).zipIdx k))
  | [], [], k, ret, _, _ => iff_of_false (by simp [HyperCash.combineLoop]) firstBad_nil
  | d :: ds, sp :: sps, k, ret, h1, h2 => by
    have ih := fun r => hc_loop H E tx htx n ds sps (k + 1) r (by simpa using h1) (by simp at h2; omega)
    have hk : k < n := by simp at h2; omega
    rw [List.zip_cons_cons, List.zipIdx_cons, firstBad_cons]
    unfold HyperCash.combineLoop
    have hm : ∀ lock, H.hash .blake256 (leBytes 4 1 ++ H.hash .blake256 ((tx.set 2 1).set 3 0) ++
        H.hash .blake256 (leBytes 2 1 ++ leBytes 2 3 ++ HyperCash.varInt n ++ HyperCash.witnessParts n k lock)) = hcMessage (H.hash .blake256) tx lock n k := by
      intro lock
      unfold hcMessage
      rw [witnessParts_eq' hk, set_eq htx, HyperCash.varInt_eq, show leBytes 4 1 = [1, 0, 0, 0] from rfl, show leBytes 2 1 ++ leBytes 2 3 = [1, 0, 3, 0] from rfl]
      simp only [List.append_assoc]
    obtain ⟨a, l, hs, hp⟩ := split_any 0x2f d
    have hu : ∀ a' b', Parts 0x2f d a' [b'] → a :: l = [a', b'] := fun a' b' h => by
      rw [← hs, (split_iff ..).mpr h]
    rw [hs]
    match l, hp, hu with
    | [], hp, hu =>
      refine iff_of_false (by simp) ?_
      rintro (⟨a', b', _, h, _⟩ | ⟨⟨a', b', _, _, h, _⟩, _⟩) <;> simpa using hu a' b' h
    | b :: c :: r, hp, hu =>
      refine iff_of_false (by simp) ?_
      rintro (⟨a', b', _, h, _⟩ | ⟨⟨a', b', _, _, h, _⟩, _⟩) <;> simpa using hu a' b' h
    | [b], hp, hu =>
      dsimp only
      cases ha : Hex.decode a with
      | panic => exact absurd ha (Hex.decode_ne_panic _)
      | err =>
        refine iff_of_false (by simp) ?_
        rintro (⟨a', b', lock, h, h', _⟩ | ⟨⟨a', b', lock, _, h, h', _⟩, _⟩)
        all_goals
          have := hu a' b' h
          simp only [List.cons.injEq, and_true] at this
          rw [← this.1, ← Eip.decode_iff, ha] at h'
          cases h'
      | ok lock =>
        have hbad : HcBad H E tx n ((d, sp), k) ↔ (E.decompress sp.pub = [] ∨
            E.verify ((E.decompress sp.pub).drop 1) (hcMessage (H.hash .blake256) tx lock n k) sp.sig = true ∧ (∃ u, HexText b u) ∧ Unwritable sp.sig) := by
          constructor
          · rintro ⟨a', b', lock', h, h', h''⟩
            have := hu a' b' h
            simp only [List.cons.injEq, and_true] at this
            rw [← this.1, ← Eip.decode_iff, ha] at h'
            cases h'
            rw [this.2]; exact h''
          · intro h; exact ⟨a, b, lock, hp, (Eip.decode_iff _ _).mp ha, h⟩
        have hgood : HcGood H E tx n ((d, sp), k) ↔ ((∃ u, HexText b u) ∧ ¬ E.decompress sp.pub = [] ∧
            E.verify ((E.decompress sp.pub).drop 1) (hcMessage (H.hash .blake256) tx lock n k) sp.sig = true ∧ ¬ Unwritable sp.sig) := by
          constructor
          · rintro ⟨a', b', lock', u, h, h', hu', h''⟩
            have := hu a' b' h
            simp only [List.cons.injEq, and_true] at this
            rw [← this.1, ← Eip.decode_iff, ha] at h'
            cases h'
            rw [this.2]; exact ⟨⟨u, hu'⟩, h''⟩
          · rintro ⟨⟨u, h⟩, h'⟩; exact ⟨a, b, lock, u, hp, (Eip.decode_iff _ _).mp ha, h, h'⟩
        rw [hbad, hgood]
        dsimp only
        rw [hm lock, tail_slice]
        by_cases hpt : E.decompress sp.pub = []
        · rw [if_pos hpt]
          exact iff_of_true rfl (.inl (.inl hpt))
        · rw [if_neg hpt, Res.bind_ok]
          simp only [hpt, false_or, not_false_eq_true, true_and]
          cases hv : E.verify ((E.decompress sp.pub).drop 1) (hcMessage (H.hash .blake256) tx lock n k) sp.sig with
          | false => simp
          | true =>
            simp only [if_true, true_and]
            cases hb : Hex.decode b with
            | panic => exact absurd hb (Hex.decode_ne_panic _)
            | err =>
              refine iff_of_false (by simp) ?_
              rintro (⟨⟨u, h⟩, _⟩ | ⟨⟨⟨u, h⟩, _⟩, _⟩)
              all_goals rw [← Eip.decode_iff, hb] at h; cases h
            | ok ss =>
              have hss : ∃ u, HexText b u := ⟨ss, (Eip.decode_iff _ _).mp hb⟩
              simp only [hss, true_and]
              by_cases hw : Unwritable sp.sig
              · rw [(script_panic sp).mpr hw]
                exact iff_of_true rfl (.inl hw)
              · obtain ⟨e, he⟩ := script_ok hw
                rw [he, Res.bind_ok, ih]
                simp [hw]
  | [], sp :: sps, k, ret, h, _ => by simp at h
  | d :: ds, [], k, ret, h, _ => by simp at h

theorem decodeInputs_ne_panic (tx : Bytes) : Mateverse.decodeEmptyTx tx ≠ .panic := by
  have hl : ∀ n b, Mateverse.inputLoop n b ≠ .panic := by
    intro n
    induction n with
    | zero => intro b; simp [Mateverse.inputLoop]
    | succ n ih =>
      intro b
      unfold Mateverse.inputLoop
      refine bind_ne (Btc.takeN_ne_panic _ _) fun a => bind_ne (Btc.takeN_ne_panic _ _) fun a => bind_ne (Btc.take1_ne_panic _) fun a => ?_
      dsimp only
      split
      · simp
      · exact bind_ne (Btc.takeN_ne_panic _ _) fun a => bind_ne (ih _) fun a => by simp
  have hc : ∀ b, Mateverse.inputCount b ≠ .panic := by
    intro b
    unfold Mateverse.inputCount
    refine bind_ne (Btc.take1_ne_panic _) fun a => ?_
    dsimp only
    split
    · split <;> simp
    · exact bind_ne (Btc.takeN_ne_panic _ _) fun a => by simp
  unfold Mateverse.decodeEmptyTx
  refine bind_ne (Btc.takeN_ne_panic _ _) fun a => ?_
  dsimp only
  split
  · simp
  · refine bind_ne (hc _) fun a => bind_ne (hl _ _) fun a => ?_
    try dsimp only
    split <;> simp

end CombinePanic
open CombinePanic CreatePanic


/-- C142, HyperCash: for a text of several parts and as many signatures, whose first part is hexadecimal, the call panics exactly if the transaction has
fewer than four bytes (and byte 2 is zero or missing), or if its serialisation type is zero and, behind inputs in order only, there is an input whose first
script is hexadecimal and whose key is not a point, or whose scripts are hexadecimal and whose signature is right and has a number that is missing or
zero. -/
theorem C142_hypercash (H : Hashes) (E : Btc.Curve) (text : Bytes) (sps : List HyperCash.SigPub) :
    HyperCash.verifyAndCombine H E text sps = .panic ↔ ∃ first rest, Parts 0x3a text first rest ∧ rest ≠ [] ∧ rest.length = sps.length ∧
      ∃ tx, HexText first tx ∧ (tx.length < 3 ∨ tx[2]? = some 0 ∧ (tx.length = 3 ∨ tx[3]? = some 0 ∧
        FirstBad
          (fun q => ∃ a b lock u, Parts 0x2f q.1.1 a [b] ∧ HexText a lock ∧ HexText b u ∧ ¬ E.decompress q.1.2.pub = [] ∧
            E.verify ((E.decompress q.1.2.pub).drop 1) (hcMessage (H.hash .blake256) tx lock sps.length q.2) q.1.2.sig = true ∧ ¬ Unwritable q.1.2.sig)
          (fun q => ∃ a b lock, Parts 0x2f q.1.1 a [b] ∧ HexText a lock ∧ (E.decompress q.1.2.pub = [] ∨
            E.verify ((E.decompress q.1.2.pub).drop 1) (hcMessage (H.hash .blake256) tx lock sps.length q.2) q.1.2.sig = true ∧ (∃ u, HexText b u) ∧
              Unwritable q.1.2.sig))
          (rest.zip sps).zipIdx)) := by
  obtain ⟨first, rest, hs, hp⟩ := split_any 0x3a text
  have e : ∀ (P : Bytes → List Bytes → Prop), (∃ f r, Parts 0x3a text f r ∧ P f r) ↔ P first rest := by
    intro P
    constructor
    · rintro ⟨f, r, h, h'⟩
      rw [(split_iff ..).mpr h] at hs
      cases hs; exact h'
    · intro h; exact ⟨first, rest, hp, h⟩
  rw [e]
  unfold HyperCash.verifyAndCombine
  rw [hs]
  dsimp only
  by_cases h0 : rest.length = 0
  · rw [if_pos h0]
    refine iff_of_false (by simp) ?_
    rintro ⟨h, _⟩
    exact h (List.length_eq_zero_iff.mp h0)
  rw [if_neg h0]
  have hne : rest ≠ [] := fun h => h0 (by simp [h])
  by_cases hl : rest.length = sps.length
  · rw [if_neg (by simpa using hl)]
    simp only [hne, ne_eq, not_false_eq_true, hl, true_and]
    cases hd : Hex.decode first with
    | panic => exact absurd hd (Hex.decode_ne_panic _)
    | err => exact iff_of_false (by simp) (hex_err hd)
    | ok tx =>
      rw [hex_ok hd]
      dsimp only
      by_cases h3 : tx.length < 3
      · have : index tx 2 = .panic := by unfold index; rw [List.getElem?_eq_none (by omega)]
        rw [this]
        exact iff_of_true rfl (.inl h3)
      · have h2 : tx[2]? = some tx[2] := List.getElem?_eq_getElem (by omega)
        have : index tx 2 = .ok tx[2] := by unfold index; rw [h2]
        rw [this, Res.bind_ok, h2]
        simp only [h3, false_or, Option.some.injEq]
        by_cases hz : tx[2] = 0
        · rw [if_neg (by simpa using hz)]
          simp only [hz, true_and]
          by_cases h4 : tx.length = 3
          · have : index tx 3 = .panic := by unfold index; rw [List.getElem?_eq_none (by omega)]
            rw [this]
            exact iff_of_true rfl (.inl h4)
          · have h5 : tx[3]? = some tx[3] := List.getElem?_eq_getElem (by omega)
            have : index tx 3 = .ok tx[3] := by unfold index; rw [h5]
            rw [this, Res.bind_ok, h5]
            simp only [h4, false_or, Option.some.injEq]
            by_cases hz3 : tx[3] = 0
            · rw [if_neg (by simpa using hz3), DecPanic.bind_panic _ _ (by intro r; cases r <;> simp), hc_loop H E tx (by omega) sps.length rest sps 0 _ hl (by omega)]
              simp only [hz3, true_and]
              rfl
            · rw [if_pos (by simpa using hz3)]
              simp [hz3]
        · rw [if_pos (by simpa using hz)]
          simp [hz]
  · rw [if_pos (by simpa using hl)]
    simp [hl]

/-- C142, Metaverse: the call panics exactly if a key that is not a point stands behind inputs in order only, or if all inputs are in order, the text is
that of a transaction whose inputs can be listed, and a signature with a number that is zero stands behind inputs with hexadecimal transaction ids only. -/
theorem C142_metaverse (E : Btc.Curve) (text : Bytes) (inputs : List Mateverse.TxInput) :
    let parts := fun (x : Mateverse.TxInput) (pub hash sig : Bytes) =>
      HexText x.pubkey pub ∧ HexText x.hash hash ∧ HexText x.signature sig ∧ pub.length = 33 ∧ hash.length = 32 ∧ sig.length = 64
    let right := fun x => ∃ pub hash sig, parts x pub hash sig ∧ ¬ E.decompress pub = [] ∧ E.verify ((E.decompress pub).drop 1) hash sig = true
    Mateverse.verifyAndCombine E text inputs = .panic ↔
      FirstBad right (fun x => ∃ pub hash sig, parts x pub hash sig ∧ E.decompress pub = []) inputs ∨
      ((∀ x ∈ inputs, right x) ∧ (∃ l, Mateverse.getInputs text = .ok l) ∧
        FirstBad (fun x => (∃ id, HexText x.txID id) ∧ ∃ s, HexText x.signature s ∧ ¬ Unwritable s)
          (fun x => (∃ id, HexText x.txID id) ∧ ∃ s, HexText x.signature s ∧ Unwritable s) inputs) := by
  intro parts right
  have hone : ∀ x, (Mateverse.verifyHash E x.pubkey x.hash x.signature = .panic ↔ ∃ pub hash sig, parts x pub hash sig ∧ E.decompress pub = []) ∧
      (Mateverse.verifyHash E x.pubkey x.hash x.signature = .ok true ↔ right x) ∧ Mateverse.verifyHash E x.pubkey x.hash x.signature ≠ .err := by
    intro x
    have none : (¬ ∃ pub hash sig, parts x pub hash sig) → (∀ v, v = Res.ok false → ((v = .panic ↔ ∃ pub hash sig, parts x pub hash sig ∧ E.decompress pub = []) ∧
      (v = .ok true ↔ right x) ∧ v ≠ .err)) := by
      rintro hn v rfl
      refine ⟨iff_of_false (by simp) ?_, iff_of_false (by simp) ?_, by simp⟩
      · rintro ⟨a, b, c, h, _⟩; exact hn ⟨a, b, c, h⟩
      · rintro ⟨a, b, c, h, _⟩; exact hn ⟨a, b, c, h⟩
    unfold Mateverse.verifyHash
    cases h1 : Hex.decode x.pubkey with
    | panic => exact absurd h1 (Hex.decode_ne_panic _)
    | err => exact none (by rintro ⟨a, b, c, h, _⟩; rw [← Eip.decode_iff, h1] at h; cases h) _ rfl
    | ok pub =>
      cases h2 : Hex.decode x.hash with
      | panic => exact absurd h2 (Hex.decode_ne_panic _)
      | err => exact none (by rintro ⟨a, b, c, _, h, _⟩; rw [← Eip.decode_iff, h2] at h; cases h) _ rfl
      | ok hash =>
        cases h3 : Hex.decode x.signature with
        | panic => exact absurd h3 (Hex.decode_ne_panic _)
        | err => exact none (by rintro ⟨a, b, c, _, _, h, _⟩; rw [← Eip.decode_iff, h3] at h; cases h) _ rfl
        | ok sig =>
          have huniq : ∀ a b c, parts x a b c → a = pub ∧ b = hash ∧ c = sig := by
            rintro a b c ⟨g1, g2, g3, _⟩
            rw [← Eip.decode_iff] at g1 g2 g3
            rw [h1] at g1; rw [h2] at g2; rw [h3] at g3
            cases g1; cases g2; cases g3
            exact ⟨rfl, rfl, rfl⟩
          dsimp only
          by_cases l1 : pub.length = 33
          · rw [if_neg (by simpa using l1)]
            by_cases l2 : hash.length = 32
            · rw [if_neg (by simpa using l2)]
              by_cases l3 : sig.length = 64
              · rw [if_neg (by simpa using l3), tail_slice]
                have hp : parts x pub hash sig := ⟨(Eip.decode_iff _ _).mp h1, (Eip.decode_iff _ _).mp h2, (Eip.decode_iff _ _).mp h3, l1, l2, l3⟩
                by_cases hk : E.decompress pub = []
                · rw [if_pos hk]
                  refine ⟨iff_of_true rfl ⟨pub, hash, sig, hp, hk⟩, iff_of_false (by simp) ?_, by simp⟩
                  rintro ⟨a, b, c, h, h', _⟩
                  obtain ⟨rfl, rfl, rfl⟩ := huniq a b c h
                  exact h' hk
                · rw [if_neg hk, Res.bind_ok]
                  refine ⟨iff_of_false (by simp) ?_, ?_, by simp⟩
                  · rintro ⟨a, b, c, h, h'⟩
                    obtain ⟨rfl, rfl, rfl⟩ := huniq a b c h
                    exact hk h'
                  · rw [Res.ok.injEq]
                    constructor
                    · intro h; exact ⟨pub, hash, sig, hp, hk, h⟩
                    · rintro ⟨a, b, c, h, _, h'⟩
                      obtain ⟨rfl, rfl, rfl⟩ := huniq a b c h
                      exact h'
              · rw [if_pos (by simpa using l3)]
                exact none (by rintro ⟨a, b, c, h⟩; obtain ⟨rfl, rfl, rfl⟩ := huniq a b c h; exact l3 h.2.2.2.2.2) _ rfl
            · rw [if_pos (by simpa using l2)]
              exact none (by rintro ⟨a, b, c, h⟩; obtain ⟨rfl, rfl, rfl⟩ := huniq a b c h; exact l2 h.2.2.2.2.1) _ rfl
          · rw [if_pos (by simpa using l1)]
            exact none (by rintro ⟨a, b, c, h⟩; obtain ⟨rfl, rfl, rfl⟩ := huniq a b c h; exact l1 h.2.2.2.1) _ rfl
  have hall : ∀ l, (Mateverse.verifyAll E l = .panic ↔ FirstBad right (fun x => ∃ pub hash sig, parts x pub hash sig ∧ E.decompress pub = []) l) ∧
      (Mateverse.verifyAll E l = .ok true ↔ ∀ x ∈ l, right x) ∧ Mateverse.verifyAll E l ≠ .err := by
    intro l
    induction l with
    | nil => exact ⟨iff_of_false (by simp [Mateverse.verifyAll]) firstBad_nil, by simp [Mateverse.verifyAll], by simp [Mateverse.verifyAll]⟩
    | cons x l ih =>
      obtain ⟨g1, g2, g3⟩ := hone x
      rw [firstBad_cons, List.forall_mem_cons]
      unfold Mateverse.verifyAll
      rw [← g1, ← g2]
      cases hx : Mateverse.verifyHash E x.pubkey x.hash x.signature with
      | err => exact absurd hx g3
      | panic => simp
      | ok v =>
        cases v with
        | false => simp
        | true => simpa using ih
  have hsub : ∀ l : List Mateverse.TxInput, (∀ x ∈ l, right x) → (Mateverse.submitLoop l = .panic ↔
      FirstBad (fun x => (∃ id, HexText x.txID id) ∧ ∃ s, HexText x.signature s ∧ ¬ Unwritable s)
          (fun x => (∃ id, HexText x.txID id) ∧ ∃ s, HexText x.signature s ∧ Unwritable s) l) := by
    intro l
    induction l with
    | nil => intro _; exact iff_of_false (by simp [Mateverse.submitLoop]) firstBad_nil
    | cons x l ih =>
      intro hr
      rw [List.forall_mem_cons] at hr
      have ih := ih hr.2
      obtain ⟨pub, hash, sig, ⟨_, _, p3, _⟩, _⟩ := hr.1
      have hdec := (Eip.decode_iff _ _).mpr p3
      have hpre : Hex.decodePrefix x.signature = sig := Hex.decodePrefix_of_ok _ _ hdec
      rw [firstBad_cons]
      unfold Mateverse.submitLoop
      simp only [hex_ok hdec]
      cases hid : Btc.reverseHexToBytes x.txID with
      | panic => exact absurd hid (reverse_ne_panic _)
      | err =>
        have : ¬ ∃ id, HexText x.txID id := by
          rintro ⟨id, h⟩
          rw [(reverse_iff _ id.reverse).mpr (by simpa using h)] at hid; cases hid
        simp [this]
      | ok id =>
        have : ∃ id, HexText x.txID id := ⟨_, (reverse_iff _ _).mp hid⟩
        simp only [this, true_and, Res.bind_ok, hpre]
        by_cases hw : Unwritable sig
        · rw [(script_panic ⟨sig, _⟩).mpr hw]
          exact iff_of_true rfl (.inl hw)
        · obtain ⟨e, he⟩ := script_ok (sp := ⟨sig, Hex.decodePrefix x.pubkey⟩) hw
          rw [he, Res.bind_ok, DecPanic.bind_panic _ _ (by intro a; simp), ih]
          simp [hw]
  unfold Mateverse.verifyAndCombine
  obtain ⟨a1, a2, a3⟩ := hall inputs
  rw [← a1, ← a2]
  cases hv : Mateverse.verifyAll E inputs with
  | err => exact absurd hv a3
  | panic => simp
  | ok v =>
    cases v with
    | false => simp
    | true =>
      simp only [Res.bind_ok, if_true, reduceCtorEq, false_or, true_and]
      rw [← hsub inputs (a2.mp hv)]
      unfold Mateverse.getSubmitBytes Mateverse.getInputs
      cases h1 : Hex.decode text with
      | panic => exact absurd h1 (Hex.decode_ne_panic _)
      | err => simp
      | ok tx =>
        simp only [Res.bind_ok]
        cases h2 : Mateverse.decodeEmptyTx tx with
        | panic => exact absurd h2 (decodeInputs_ne_panic _)
        | err => simp
        | ok y =>
          simp only [Res.bind_ok, Res.ok.injEq, exists_eq', true_and]
          cases Mateverse.submitLoop inputs <;> simp

end Verif
