import Verif.Lemmas.Alien
import Verif.Lemmas.Vollar
import Verif.Spec.Frame

/-! Texts accepted by the combining functions of `vergeTransaction`, `aliencoinTransaction` and `vollarTransaction`. -/

namespace Verif.Verge
open Verif Verif.Spec Verif.Spec.Verge
open Verif.HyperCash (mapAll mapAll_iff varBytes_short)

theorem takeN_inv {n : Nat} {b x r : Bytes} (h : Btc.takeN n b = .ok (x, r)) : b = x ++ r ∧ x.length = n := by
  unfold Btc.takeN at h
  split at h
  · cases h
  · cases h
    exact ⟨(List.take_append_drop n b).symm, by simp; omega⟩

theorem take1_inv {b : Bytes} {x : UInt8} {r : Bytes} (h : Btc.take1 b = .ok (x, r)) : b = x :: r := by
  unfold Btc.take1 at h
  split at h
  · cases h
  · cases h; rfl

theorem readMany_inv {α : Type} {f : Bytes → Res (α × Bytes)} {g : α → Bytes} {P : α → Prop} (hf : ∀ b x r, f b = .ok (x, r) → b = g x ++ r ∧ P x) :
    ∀ (n : Nat) (b : Bytes) (xs : List α) (r : Bytes), readMany f n b = .ok (xs, r) → b = xs.flatMap g ++ r ∧ xs.length = n ∧ ∀ x ∈ xs, P x
  | 0, b, xs, r, h => by
    cases h
    exact ⟨rfl, rfl, by simp⟩
  | n + 1, b, xs, r, h => by
    unfold readMany at h
    obtain ⟨⟨x, b'⟩, hx, h⟩ := Res.bind_eq_ok.mp h
    obtain ⟨⟨xs', b''⟩, hxs, h⟩ := Res.bind_eq_ok.mp h
    cases h
    obtain ⟨rfl, hp⟩ := hf _ _ _ hx
    obtain ⟨rfl, rfl, hps⟩ := readMany_inv hf n _ _ _ hxs
    exact ⟨by simp, rfl, List.forall_mem_cons.mpr ⟨hp, hps⟩⟩

/-- The form of an input read from a text. -/
def BareIn (i : TxIn) : Prop := (i.txid ++ i.vout).length = 36 ∧ i.sequence.length = 4

theorem readIn_inv (b : Bytes) (x : TxIn) (r : Bytes) (h : readIn b = .ok (x, r)) :
    b = (x.txid ++ x.vout ++ [0] ++ x.sequence) ++ r ∧ BareIn x := by
  unfold readIn at h
  obtain ⟨⟨txid, b1⟩, h1, h⟩ := Res.bind_eq_ok.mp h
  obtain ⟨⟨vout, b2⟩, h2, h⟩ := Res.bind_eq_ok.mp h
  obtain ⟨⟨z, b3⟩, h3, h⟩ := Res.bind_eq_ok.mp h
  simp only at h h2 h3
  split at h
  · cases h
  rename_i hz
  simp only [not_not] at hz
  obtain ⟨⟨sq, b4⟩, h4, h⟩ := Res.bind_eq_ok.mp h
  cases h
  obtain ⟨rfl, l1⟩ := takeN_inv h1
  obtain ⟨rfl, l2⟩ := takeN_inv h2
  obtain rfl := take1_inv h3
  obtain ⟨rfl, l4⟩ := takeN_inv h4
  subst hz
  exact ⟨by simp, by simp [l1, l2], l4⟩

/-- The form of an output read from a text. -/
def BareOut (o : TxOut) : Prop := o.amount.length = 8 ∧ ∃ s : Bytes, s.length < 256 ∧ o.script = push s

theorem readScript_inv (b s r : Bytes) (h : readScript b = .ok (s, r)) : b = s ++ r ∧ ∃ t : Bytes, t.length < 256 ∧ s = push t := by
  unfold readScript at h
  obtain ⟨⟨n, b1⟩, h1, h⟩ := Res.bind_eq_ok.mp h
  obtain ⟨⟨t, b2⟩, h2, h⟩ := Res.bind_eq_ok.mp h
  cases h
  obtain rfl := take1_inv h1
  obtain ⟨rfl, l⟩ := takeN_inv h2
  have := n.toNat_lt
  refine ⟨rfl, t, by omega, ?_⟩
  unfold push
  rw [l, UInt8.ofNat_toNat]

theorem readOut_inv (b : Bytes) (x : TxOut) (r : Bytes) (h : readOut b = .ok (x, r)) : b = x.toBytes ++ r ∧ BareOut x := by
  unfold readOut at h
  obtain ⟨⟨a, b1⟩, h1, h⟩ := Res.bind_eq_ok.mp h
  obtain ⟨⟨s, b2⟩, h2, h⟩ := Res.bind_eq_ok.mp h
  cases h
  obtain ⟨rfl, l1⟩ := takeN_inv h1
  obtain ⟨rfl, t, ht, rfl⟩ := readScript_inv _ _ _ h2
  exact ⟨by simp [TxOut.toBytes], l1, t, ht, rfl⟩

theorem splitOn_inv (c : UInt8) : ∀ (s : Bytes), ∃ a l, OwKeychain.splitOn c s = a :: l ∧ s = a ++ l.flatMap (fun x => c :: x) ∧
    (c ∉ a) ∧ ∀ x ∈ l, c ∉ x
  | [] => ⟨[], [], rfl, rfl, by simp, by simp⟩
  | x :: s => by
    obtain ⟨a, l, h1, h2, h3, h4⟩ := splitOn_inv c s
    unfold OwKeychain.splitOn
    by_cases hx : x = c
    · rw [h1]
      subst hx
      refine ⟨[], a :: l, by simp, by rw [List.flatMap_cons, List.nil_append, h2]; rfl, by simp, ?_⟩
      intro y hy
      rcases List.mem_cons.mp hy with rfl | hy
      · exact h3
      · exact h4 y hy
    · rw [h1]
      refine ⟨x :: a, l, by simp [hx], by rw [h2]; rfl, ?_, h4⟩
      intro hc
      rcases List.mem_cons.mp hc with rfl | hc
      · exact hx rfl
      · exact h3 hc

/-- The frame of a transaction of the code. -/
def frameOf (t : TxStruct) : Frame :=
  ⟨t.version ++ t.time, t.ins.map fun i => (i.txid ++ i.vout, i.sequence), UInt8.ofNat t.outs.length :: t.outs.flatMap TxOut.toBytes ++ t.lockTime⟩

theorem tail_ok {outs : List TxOut} (hl : outs.length < 256) (ho : ∀ o ∈ outs, BareOut o) {lt : Bytes} (h4 : lt.length = 4) :
    IsTail (UInt8.ofNat outs.length :: outs.flatMap TxOut.toBytes ++ lt) := by
  have : ∃ l : List (Bytes × Bytes), l.length = outs.length ∧ (∀ o ∈ l, o.1.length = 8 ∧ o.2.length < 256) ∧
      outs.flatMap TxOut.toBytes = l.flatMap (fun o => o.1 ++ push o.2) := by
    clear hl
    induction outs with
    | nil => exact ⟨[], rfl, by simp, rfl⟩
    | cons o outs ih =>
      obtain ⟨⟨h1, s, h2, h3⟩, ho⟩ := List.forall_mem_cons.mp ho
      obtain ⟨l, e1, e2, e3⟩ := ih ho
      refine ⟨(o.amount, s) :: l, by simp [e1], List.forall_mem_cons.mpr ⟨⟨h1, h2⟩, e2⟩, ?_⟩
      rw [List.flatMap_cons, List.flatMap_cons, e3]
      unfold TxOut.toBytes
      rw [h3]
  obtain ⟨l, e1, e2, e3⟩ := this
  exact ⟨l, lt, by omega, e2, h4, by rw [e1, e3]; rfl⟩

theorem zipWith_withLock_map {α : Type} (g : TxIn → α) (hg : ∀ i l, g (withLock i l) = g i) : ∀ (is : List TxIn) (ls : List Bytes),
    is.length = ls.length → (List.zipWith withLock is ls).map g = is.map g
  | [], [], _ => rfl
  | i :: is, l :: ls, h => by
    rw [List.zipWith_cons_cons, List.map_cons, List.map_cons, hg, zipWith_withLock_map g hg is ls (by simpa using h)]
  | [], _ :: _, h => by simp at h
  | _ :: _, [], h => by simp at h

theorem zipWith_withLock_lock : ∀ (is : List TxIn) (ls : List Bytes),
    is.length = ls.length → (List.zipWith withLock is ls).map (·.lock) = (ls.map Hex.decodePrefix).map push
  | [], [], _ => rfl
  | i :: is, l :: ls, h => by
    rw [List.zipWith_cons_cons, List.map_cons, List.map_cons, List.map_cons, zipWith_withLock_lock is ls (by simpa using h)]
    rfl
  | [], _ :: _, h => by simp at h
  | _ :: _, [], h => by simp at h

/-- What is known of a text that decodes to `t` with the lock scripts `rest`. -/
structure Decoded (n : Nat) (text : Bytes) (t : TxStruct) (rest : List Bytes) : Prop where
  frame : (frameOf t).Ok n
  split : ∃ first, text = first ++ rest.flatMap (fun l => asc ":" ++ l) ∧
    Hex.decode first = .ok ((frameOf t).fill ((frameOf t).ins.map fun _ => [0]))
  colon : ∀ l ∈ rest, (0x3a : UInt8) ∉ l
  count : rest.length = t.ins.length
  locks : t.ins.map (·.lock) = (rest.map Hex.decodePrefix).map push

theorem decoded_aux (n : Nat) (text first : Bytes) (rest : List Bytes) (version time lt : Bytes) (ins : List TxIn) (outs : List TxOut) (nIns nOuts : UInt8)
    (htext : text = first ++ rest.flatMap (fun l => 0x3a :: l)) (hcol : ∀ l ∈ rest, (0x3a : UInt8) ∉ l) (hrest : rest.length ≠ 0)
    (hn : (version ++ time).length = n) (hins : ins.length = nIns.toNat) (houts : outs.length = nOuts.toNat) (hlt : lt.length = 4)
    (hi : ∀ i ∈ ins, BareIn i) (ho : ∀ o ∈ outs, BareOut o) (hlen : ins.length = rest.length)
    (hdec : Hex.decode first = .ok (version ++ (time ++ nIns :: (ins.flatMap (fun x => x.txid ++ x.vout ++ [0] ++ x.sequence) ++
      nOuts :: (outs.flatMap TxOut.toBytes ++ lt))))) :
    Decoded n text ⟨version, time, List.zipWith withLock ins rest, outs, lt⟩ rest := by
  have hin : (frameOf ⟨version, time, List.zipWith withLock ins rest, outs, lt⟩).ins = ins.map fun i => (i.txid ++ i.vout, i.sequence) :=
    zipWith_withLock_map _ (fun _ _ => rfl) ins rest hlen
  have h8 := nIns.toNat_lt
  have h9 := nOuts.toNat_lt
  refine ⟨⟨hn, ?_, ?_, ?_, ?_⟩, ⟨first, ?_, ?_⟩, hcol, ?_, zipWith_withLock_lock ins rest hlen⟩
  · rw [hin]
    intro e
    rw [List.map_eq_nil_iff] at e
    rw [e] at hlen
    exact hrest hlen.symm
  · rw [hin, List.length_map]; omega
  · rw [hin]
    intro p hp
    obtain ⟨i, him, rfl⟩ := List.mem_map.mp hp
    exact hi i him
  · exact tail_ok (by omega) ho hlt
  · rw [htext, show asc ":" = [0x3a] from by decide]; rfl
  · rw [hdec]
    unfold Frame.fill
    rw [hin, List.length_map, hins, UInt8.ofNat_toNat, List.zipWith_map_left, List.zipWith_map_right]
    unfold frameOf
    simp only
    rw [houts, UInt8.ofNat_toNat]
    have : (List.zipWith (fun (x : TxIn) (_ : Bytes × Bytes) => (x.txid ++ x.vout) ++ [0] ++ x.sequence) ins (ins.map fun i => (i.txid ++ i.vout, i.sequence))) =
        ins.map fun x => x.txid ++ x.vout ++ [0] ++ x.sequence := zipWith_map_self _ _ _
    rw [this]
    simp [List.flatMap]
  · simp [hlen]

theorem decodeRaw_inv (text : Bytes) (t : TxStruct) (rest : List Bytes) (h : decodeRaw text = .ok (t, rest)) : Decoded 8 text t rest := by
  obtain ⟨first, l, hs, htext, _, hcol⟩ := splitOn_inv 0x3a text
  unfold decodeRaw at h
  rw [hs] at h
  simp only at h
  split at h
  · cases h
  rename_i hrest
  obtain ⟨tx, h0, h⟩ := Res.bind_eq_ok.mp h
  obtain ⟨⟨version, b1⟩, h1, h⟩ := Res.bind_eq_ok.mp h
  obtain ⟨⟨time, b2⟩, h2, h⟩ := Res.bind_eq_ok.mp h
  obtain ⟨⟨nIns, b3⟩, h3, h⟩ := Res.bind_eq_ok.mp h
  obtain ⟨⟨ins, b4⟩, h4, h⟩ := Res.bind_eq_ok.mp h
  obtain ⟨⟨nOuts, b5⟩, h5, h⟩ := Res.bind_eq_ok.mp h
  obtain ⟨⟨outs, b6⟩, h6, h⟩ := Res.bind_eq_ok.mp h
  obtain ⟨⟨lt, b7⟩, h7, h⟩ := Res.bind_eq_ok.mp h
  simp only at h h2 h3 h4 h5 h6 h7
  split at h
  · cases h
  rename_i hb
  simp only [not_not] at hb
  split at h
  · cases h
  rename_i hlen
  simp only [not_not] at hlen
  cases h
  obtain ⟨rfl, l1⟩ := takeN_inv h1
  obtain ⟨rfl, l2⟩ := takeN_inv h2
  obtain rfl := take1_inv h3
  obtain ⟨rfl, l4, p4⟩ := readMany_inv readIn_inv _ _ _ _ h4
  obtain rfl := take1_inv h5
  obtain ⟨rfl, l6, p6⟩ := readMany_inv readOut_inv _ _ _ _ h6
  obtain ⟨rfl, l7⟩ := takeN_inv h7
  subst hb
  rw [List.append_nil] at h0
  exact decoded_aux 8 text first rest version time lt ins outs nIns nOuts htext hcol hrest (by simp [l1, l2]) l4 l6 l7 p4 p6 hlen h0

theorem signed_inv {toB : TxIn → Res Bytes} {good : SigPub → Prop} {Q : SigPub → Bytes → Prop} (hB : ∀ (i : TxIn) sp s, good sp →
      toB { i with sigPub := some sp } = .ok s → ∃ u, Q sp u ∧ s = i.txid ++ i.vout ++ u ++ i.sequence) :
    ∀ (is : List TxIn) (sps : List SigPub) (bs : List Bytes), is.length = sps.length → (∀ s ∈ sps, good s) →
    mapAll toB (List.zipWith (fun i sp => ({ i with sigPub := some sp } : TxIn)) is sps) = .ok bs →
    ∃ us, List.Forall₂ Q sps us ∧
      bs = List.zipWith (fun i s => i.1 ++ s ++ i.2) (is.map fun i => (i.txid ++ i.vout, i.sequence)) us
  | [], [], bs, _, _, h => by cases h; exact ⟨[], .nil, rfl⟩
  | i :: is, sp :: sps, bs, hl, hg, h => by
    obtain ⟨g1, hg⟩ := List.forall_mem_cons.mp hg
    rw [List.zipWith_cons_cons] at h
    unfold mapAll at h
    obtain ⟨s, hs, h⟩ := Res.bind_eq_ok.mp h
    obtain ⟨r, hr, h⟩ := Res.bind_eq_ok.mp h
    cases h
    obtain ⟨u, hu, rfl⟩ := hB i sp s g1 hs
    obtain ⟨us, hus, rfl⟩ := signed_inv hB is sps r (by simpa using hl) hg hr
    exact ⟨u :: us, .cons hu hus, rfl⟩
  | [], _ :: _, _, hl, _, _ => by simp at hl
  | _ :: _, [], _, hl, _, _ => by simp at hl

theorem fill_eq (t : TxStruct) (scripts : List Bytes) : (frameOf t).fill scripts = t.version ++ t.time ++ UInt8.ofNat t.ins.length ::
    (List.zipWith (fun i s => i.1 ++ s ++ i.2) (t.ins.map fun i => (i.txid ++ i.vout, i.sequence)) scripts).flatten ++
    UInt8.ofNat t.outs.length :: t.outs.flatMap TxOut.toBytes ++ t.lockTime := by
  unfold Frame.fill frameOf
  simp

theorem hashData_fill (t : TxStruct) (lks : List Bytes) (hl : t.ins.map (·.lock) = lks.map push) (k : Nat) :
    t.version ++ t.time ++ UInt8.ofNat t.ins.length ::
      (t.ins.mapIdx fun j i => i.txid ++ i.vout ++ (if j = k then i.lock else [0]) ++ i.sequence).flatten ++
      UInt8.ofNat t.outs.length :: t.outs.flatMap TxOut.toBytes ++ t.lockTime ++ [1, 0, 0, 0] =
    (frameOf t).fill (lks.mapIdx fun j l => if j = k then push l else [0]) ++ leBytes 4 1 := by
  rw [fill_eq]
  have : List.zipWith (fun i s => i.1 ++ s ++ i.2) (t.ins.map fun i => (i.txid ++ i.vout, i.sequence)) (lks.mapIdx fun j l => if j = k then push l else [0]) =
      t.ins.mapIdx fun j i => i.txid ++ i.vout ++ (if j = k then i.lock else [0]) ++ i.sequence := by
    have hlen : t.ins.length = lks.length := by simpa using congrArg List.length hl
    refine List.ext_getElem (by simp [hlen]) fun j h1 h2 => ?_
    have e : (t.ins.map (·.lock))[j]'(by simpa using h2) = (lks.map push)[j]'(by simpa [← hlen] using h2) := by simp only [hl]
    simp only [List.getElem_map] at e
    simp only [List.getElem_zipWith, List.getElem_map, List.getElem_mapIdx, e]
  rw [this]
  rfl

end Verif.Verge

namespace Verif.Alien
open Verif Verif.Spec Verif.Spec.Verge Verif.Verge

theorem decodeRaw_inv (text : Bytes) (t : TxStruct) (rest : List Bytes) (h : decodeRaw text = .ok (t, rest)) : Decoded 4 text t rest ∧ t.time = [] := by
  obtain ⟨first, l, hs, htext, _, hcol⟩ := splitOn_inv 0x3a text
  unfold decodeRaw at h
  rw [hs] at h
  simp only at h
  split at h
  · cases h
  rename_i hrest
  obtain ⟨tx, h0, h⟩ := Res.bind_eq_ok.mp h
  obtain ⟨⟨version, b2⟩, h1, h⟩ := Res.bind_eq_ok.mp h
  obtain ⟨⟨nIns, b3⟩, h3, h⟩ := Res.bind_eq_ok.mp h
  obtain ⟨⟨ins, b4⟩, h4, h⟩ := Res.bind_eq_ok.mp h
  obtain ⟨⟨nOuts, b5⟩, h5, h⟩ := Res.bind_eq_ok.mp h
  obtain ⟨⟨outs, b6⟩, h6, h⟩ := Res.bind_eq_ok.mp h
  obtain ⟨⟨lt, b7⟩, h7, h⟩ := Res.bind_eq_ok.mp h
  simp only at h h3 h4 h5 h6 h7
  split at h
  · cases h
  rename_i hb
  simp only [not_not] at hb
  split at h
  · cases h
  rename_i hlen
  simp only [not_not] at hlen
  cases h
  obtain ⟨rfl, l1⟩ := takeN_inv h1
  obtain rfl := take1_inv h3
  obtain ⟨rfl, l4, p4⟩ := readMany_inv readIn_inv _ _ _ _ h4
  obtain rfl := take1_inv h5
  obtain ⟨rfl, l6, p6⟩ := readMany_inv readOut_inv _ _ _ _ h6
  obtain ⟨rfl, l7⟩ := takeN_inv h7
  subst hb
  rw [List.append_nil] at h0
  exact ⟨decoded_aux 4 text first rest version [] lt ins outs nIns nOuts htext hcol hrest (by simp [l1]) l4 l6 l7 p4 p6 hlen h0, rfl⟩

end Verif.Alien

namespace Verif.Vollar
open Verif Verif.Spec Verif.Spec.Verge
open Verif.Verge (takeN_inv take1_inv readMany_inv readIn_inv readScript_inv splitOn_inv BareIn TxIn SigPub)

/-- The form of an output read from a text. -/
def BareOut (o : TxOut) : Prop := o.amount.length = 8 ∧ (∃ s : Bytes, s.length < 256 ∧ o.script = push s) ∧ o.hashData.length = 32

theorem readOut_inv (b : Bytes) (x : TxOut) (r : Bytes) (h : readOut b = .ok (x, r)) : b = x.toBytes ++ r ∧ BareOut x := by
  unfold readOut at h
  obtain ⟨⟨a, b1⟩, h1, h⟩ := Res.bind_eq_ok.mp h
  obtain ⟨⟨f, b2⟩, h2, h⟩ := Res.bind_eq_ok.mp h
  obtain ⟨⟨s, b3⟩, h3, h⟩ := Res.bind_eq_ok.mp h
  obtain ⟨⟨d, b4⟩, h4, h⟩ := Res.bind_eq_ok.mp h
  cases h
  obtain ⟨rfl, l1⟩ := takeN_inv h1
  obtain rfl := take1_inv h2
  obtain ⟨rfl, t, ht, rfl⟩ := readScript_inv _ _ _ h3
  obtain ⟨rfl, l4⟩ := takeN_inv h4
  exact ⟨by simp [TxOut.toBytes], l1, ⟨t, ht, rfl⟩, l4⟩

/-- The frame of a transaction of the code. -/
def frameOf (t : TxStruct) : Frame :=
  ⟨t.version ++ [t.flag], t.ins.map fun i => (i.txid ++ i.vout, i.sequence), UInt8.ofNat t.outs.length :: t.outs.flatMap TxOut.toBytes⟩

theorem tail_ok {outs : List TxOut} (ho : ∀ o ∈ outs, BareOut o) : ∃ l : List (Bytes × Bytes × Bytes), l.length = outs.length ∧
    (∀ o ∈ l, o.1.length = 9 ∧ o.2.1.length < 256 ∧ o.2.2.length = 32) ∧
    outs.flatMap TxOut.toBytes = l.flatMap (fun o => o.1 ++ push o.2.1 ++ o.2.2) := by
  induction outs with
  | nil => exact ⟨[], rfl, by simp, rfl⟩
  | cons o outs ih =>
    obtain ⟨⟨h1, ⟨s, h2, h3⟩, h4⟩, ho⟩ := List.forall_mem_cons.mp ho
    obtain ⟨l, e1, e2, e3⟩ := ih ho
    refine ⟨(o.amount ++ [o.flag], s, o.hashData) :: l, by simp [e1], List.forall_mem_cons.mpr ⟨⟨by simp [h1], h2, h4⟩, e2⟩, ?_⟩
    rw [List.flatMap_cons, List.flatMap_cons, e3]
    unfold TxOut.toBytes
    rw [h3]
    simp

/-- What is known of a text that decodes to `t` with the lock scripts `rest`. -/
structure Decoded (text : Bytes) (t : TxStruct) (rest : List Bytes) : Prop where
  frame : (frameOf t).VOk (t.outs.flatMap TxOut.toBytes)
  split : ∃ first, text = first ++ rest.flatMap (fun l => asc ":" ++ l) ∧
    Hex.decode first = .ok ((frameOf t).fill ((frameOf t).ins.map fun _ => [0]))
  colon : ∀ l ∈ rest, (0x3a : UInt8) ∉ l
  count : rest.length = t.ins.length

theorem decodeRaw_inv (text : Bytes) (t : TxStruct) (rest : List Bytes) (h : decodeRaw text = .ok (t, rest)) : Decoded text t rest := by
  obtain ⟨first, l, hs, htext, _, hcol⟩ := splitOn_inv 0x3a text
  unfold decodeRaw at h
  rw [hs] at h
  simp only at h
  split at h
  · cases h
  rename_i hrest
  obtain ⟨tx, h0, h⟩ := Res.bind_eq_ok.mp h
  obtain ⟨⟨version, b1⟩, h1, h⟩ := Res.bind_eq_ok.mp h
  obtain ⟨⟨flag, b2⟩, h2, h⟩ := Res.bind_eq_ok.mp h
  obtain ⟨⟨nIns, b3⟩, h3, h⟩ := Res.bind_eq_ok.mp h
  obtain ⟨⟨ins, b4⟩, h4, h⟩ := Res.bind_eq_ok.mp h
  obtain ⟨⟨nOuts, b5⟩, h5, h⟩ := Res.bind_eq_ok.mp h
  obtain ⟨⟨outs, b6⟩, h6, h⟩ := Res.bind_eq_ok.mp h
  simp only at h h2 h3 h4 h5 h6
  split at h
  · cases h
  rename_i hb
  simp only [not_not] at hb
  split at h
  · cases h
  rename_i hlen
  simp only [not_not] at hlen
  cases h
  obtain ⟨rfl, l1⟩ := takeN_inv h1
  obtain rfl := take1_inv h2
  obtain rfl := take1_inv h3
  obtain ⟨rfl, l4, p4⟩ := readMany_inv readIn_inv _ _ _ _ h4
  obtain rfl := take1_inv h5
  obtain ⟨rfl, l6, p6⟩ := readMany_inv readOut_inv _ _ _ _ h6
  subst hb
  rw [List.append_nil] at h0
  have h8 := nIns.toNat_lt
  have h9 := nOuts.toNat_lt
  have hin : (frameOf ⟨version, flag, ins, outs⟩).ins = ins.map fun i => (i.txid ++ i.vout, i.sequence) := rfl
  refine ⟨⟨by simp [frameOf, l1], ?_, ?_, ?_, ?_⟩, ⟨first, ?_, ?_⟩, hcol, hlen.symm⟩
  · rw [hin]
    intro e
    rw [List.map_eq_nil_iff] at e
    rw [e] at hlen
    exact hrest hlen.symm
  · rw [hin, List.length_map]; omega
  · rw [hin]
    intro p hp
    obtain ⟨i, him, rfl⟩ := List.mem_map.mp hp
    exact p4 i him
  · obtain ⟨l, e1, e2, e3⟩ := tail_ok p6
    exact ⟨l, by omega, e2, e3, by rw [e1]; rfl⟩
  · rw [htext, show asc ":" = [0x3a] from by decide]; rfl
  · rw [h0]
    unfold Frame.fill
    rw [hin, List.length_map, l4, UInt8.ofNat_toNat, List.zipWith_map_left, List.zipWith_map_right]
    unfold frameOf
    simp only
    rw [l6, UInt8.ofNat_toNat]
    have : (List.zipWith (fun (x : TxIn) (_ : Bytes × Bytes) => (x.txid ++ x.vout) ++ [0] ++ x.sequence) ins (ins.map fun i => (i.txid ++ i.vout, i.sequence))) =
        ins.map fun x => x.txid ++ x.vout ++ [0] ++ x.sequence := Verge.zipWith_map_self _ _ _
    rw [this]
    simp [List.flatMap]

theorem setLocks_inv : ∀ (is : List TxIn) (ls : List Bytes) (xs : List TxIn), is.length = ls.length → setLocks is ls = .ok xs →
    ∃ lks, List.Forall₂ (fun x l => Hex.decode x = .ok l) ls lks ∧ xs.map (·.lock) = lks.map push ∧
      xs.map (fun i => (i.txid ++ i.vout, i.sequence)) = is.map (fun i => (i.txid ++ i.vout, i.sequence))
  | [], [], xs, _, h => by cases h; exact ⟨[], .nil, rfl, rfl⟩
  | i :: is, l :: ls, xs, hl, h => by
    unfold setLocks at h
    obtain ⟨k, hk, h⟩ := Res.bind_eq_ok.mp h
    obtain ⟨r, hr, h⟩ := Res.bind_eq_ok.mp h
    cases h
    obtain ⟨lks, e1, e2, e3⟩ := setLocks_inv is ls r (by simpa using hl) hr
    exact ⟨k :: lks, .cons hk e1, by rw [List.map_cons, e2]; rfl, by rw [List.map_cons, e3]; rfl⟩
  | [], _ :: _, _, hl, _ => by simp at hl
  | _ :: _, [], _, hl, _ => by simp at hl

end Verif.Vollar
