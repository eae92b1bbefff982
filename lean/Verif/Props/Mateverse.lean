import Verif.Lemmas.Mateverse
import Verif.Props.HyperCashList

/-! C55, C77, C78, C79, C80: transactions of package `mateverseTransaction`. -/

namespace Verif
open Verif.Mateverse Verif.Spec Verif.Spec.Mateverse
open Verif.Spec.HyperCash (IsUnlock)

/-- A transaction with two inputs. -/
def Mateverse.demo : Tx := ⟨[⟨List.replicate 32 1, 0, 0xffffffff⟩, ⟨List.replicate 32 2, 3, 7⟩], [0, 0, 0, 0, 0]⟩

theorem Mateverse.demo_valid : demo.Valid := by
  unfold Tx.Valid; decide +kernel

/-! ### C78 -/

/-- C78: for every unsigned transaction with 1 to 65535 inputs the ids, output numbers and sequence numbers are listed, in order. -/
theorem C78_inputs (t : Tx) (h : t.Valid) :
    getInputs (Hex.encode t.empty) =
      .ok (t.ins.map fun i => ⟨Hex.encode i.txid, UInt32.ofNat i.vout, [], UInt32.ofNat i.sequence, [], [], []⟩) := by
  unfold getInputs
  rw [Hex.decode_encode, Res.bind_ok, decodeEmptyTx_eq h, Res.bind_ok]
  rfl

/-- C78, converse: a text for which inputs are listed is the hex form of version 4, an input count, exactly those inputs without scripts, and
something behind them. The count may also be `fe` or `ff` standing for 254 or 255, or a small number in the three-byte form; those are
not written by the chain. -/
theorem C78_only (text : Bytes) (l : List TxInput) (h : getInputs text = .ok l) :
    ∃ (t : Tx) (count : Bytes), Hex.decode text = .ok (leBytes 4 4 ++ count ++ (t.ins.map fun i => inWire i []).flatten ++ t.tail) ∧
      t.tail ≠ [] ∧ (∀ i ∈ t.ins, i.txid.length = 32 ∧ i.vout < 2 ^ 32 ∧ i.sequence < 2 ^ 32) ∧
      l = (t.ins.map fun i => ⟨Hex.encode i.txid, UInt32.ofNat i.vout, [], UInt32.ofNat i.sequence, [], [], []⟩) ∧
      ((t.ins ≠ [] ∧ t.ins.length < 256 ∧ count = [UInt8.ofNat t.ins.length]) ∨
        (t.ins.length < 2 ^ 16 ∧ count = 0xfd :: leBytes 2 t.ins.length)) := by
  unfold getInputs at h
  obtain ⟨tx, htx, h⟩ := Res.bind_eq_ok.mp h
  obtain ⟨⟨l', tail⟩, hd, h⟩ := Res.bind_eq_ok.mp h
  cases h
  unfold decodeEmptyTx at hd
  obtain ⟨⟨v, b⟩, hv, hd⟩ := Res.bind_eq_ok.mp hd
  simp only at hd
  split at hd
  · cases hd
  rename_i hver
  obtain ⟨⟨n, r⟩, hn, hd⟩ := Res.bind_eq_ok.mp hd
  obtain ⟨⟨l'', tail'⟩, hl, hd⟩ := Res.bind_eq_ok.mp hd
  simp only at hd
  split at hd
  · cases hd
  rename_i htail
  cases hd
  obtain ⟨ins, e1, e2, e3, e4⟩ := inputLoop_conv _ _ _ _ hl
  simp only at e1 e3
  have hv4 : tx = leBytes 4 4 ++ b := by
    unfold Btc.takeN at hv
    split at hv
    · cases hv
    rename_i hlen
    cases hv
    have hl4 : (tx.take 4).length = 4 := by simp; omega
    have h1 := leBytes_leNat (tx.take 4)
    rw [hl4] at h1
    have hver : leNat (tx.take 4) = 4 := by simpa using hver
    rw [hver] at h1
    rw [h1, List.take_append_drop]
  rcases inputCount_conv hn with ⟨c1, c2, c3, c4⟩ | ⟨c1, c4⟩
  · refine ⟨⟨ins, tail⟩, [UInt8.ofNat n], ?_, htail, e2, e4, Or.inl ⟨?_, by simp only [e1]; omega, by rw [e1]⟩⟩
    · rw [htx, hv4, c4, e3]
      simp
    · rintro rfl
      simp at e1; omega
  · refine ⟨⟨ins, tail⟩, 0xfd :: leBytes 2 n, ?_, htail, e2, e4, Or.inr ⟨by rw [e1]; exact c1, by rw [e1]⟩⟩
    rw [htx, hv4, c4, e3]
    simp

example : (getInputs (Hex.encode demo.empty)).isOk = true := by decide +kernel

/-! ### C79 -/

/-- `SetLockScript`, called for all inputs. -/
def Mateverse.setLocks (l : List TxInput) (texts : List Bytes) : List TxInput := List.zipWith (fun x s => { x with lockScript := s }) l texts

theorem Mateverse.forall₂_replace {α β : Type} {R : α → β → Prop} {x y : α} {b : List α} (hxy : ∀ i, R x i → R y i) :
    ∀ {a : List α} {l : List β}, List.Forall₂ R (a ++ x :: b) l → List.Forall₂ R (a ++ y :: b) l
  | [], _ :: _, .cons h hs => .cons (hxy _ h) hs
  | _ :: _, _ :: _, .cons h hs => .cons h (forall₂_replace hxy hs)

theorem Mateverse.match_replace {x : TxInput} (lock hash : Bytes) {a b : List TxInput} {l : List In} (h : List.Forall₂ Match (a ++ x :: b) l) :
    List.Forall₂ Match (a ++ (⟨x.txID, x.vout, lock, x.sequence, hash, x.signature, x.pubkey⟩ : TxInput) :: b) l :=
  forall₂_replace (x := x) (y := (⟨x.txID, x.vout, lock, x.sequence, hash, x.signature, x.pubkey⟩ : TxInput)) (fun _ h => h) h

theorem Mateverse.sigLoop_eq (H : Hashes) (t : Tx) (hn : t.ins.length < 2 ^ 16) : ∀ (xs done : List TxInput) (locks : List Bytes),
    List.Forall₂ Match (done ++ xs) t.ins → List.Forall₂ (fun x s => IsLock x.lockScript s) xs locks →
    sigLoop H t.tail done xs = .ok (done ++ List.zipWith (fun x p => { x with lockScript := Hex.encode p.1, hash := p.2 }) xs
      (locks.mapIdx fun k s => (s, Hex.encode (H.hash .doubleSha256 (preCode t (done.length + k) s)))))
  | [], done, [], _, .nil => by simp [sigLoop]
  | x :: xs, done, s :: locks, hm, .cons h1 hs => by
    obtain ⟨h2, h3⟩ := isLock_facts h1
    obtain ⟨i, hi⟩ : ∃ i, Match x i := by
      obtain ⟨i, _, hi⟩ := Elastos.forall₂_mem hm.flip x (by simp)
      exact ⟨i, hi⟩
    unfold sigLoop
    rw [if_neg h2]
    simp only [lock_eq h1]
    have hlen := Hex.encode_length s
    rw [if_neg (by
      rw [not_or]
      refine ⟨fun he => ?_, by omega⟩
      rw [he] at hlen
      simp only [List.length_nil] at hlen
      omega)]
    simp only [hi.1]
    rw [if_neg (by simp [hi.2.1])]
    have hm1 : List.Forall₂ Match (done ++ { x with lockScript := Hex.encode s } :: xs) t.ins :=
      match_replace _ _ hm
    have hpre : getHashCalcBytes (done ++ { x with lockScript := Hex.encode s } :: xs) done.length ++ t.tail ++ leBytes 4 1 = preCode t done.length s := by
      unfold getHashCalcBytes preCode
      have := calcLoop_eq (lock := s) (j := 0) (k := done.length) hm1 ⟨{ x with lockScript := Hex.encode s }, by simp, rfl⟩
      rw [Nat.zero_add] at this
      rw [this, hm1.length_eq, countBytes_eq hn]
    rw [hpre]
    have ih := sigLoop_eq H t hn xs (done ++ [{ x with lockScript := Hex.encode s, hash := Hex.encode (H.hash .doubleSha256 (preCode t done.length s)) }])
      locks (by rw [List.append_assoc]; exact match_replace _ _ hm) hs
    rw [ih, List.append_assoc]
    refine congrArg _ (congrArg _ ?_)
    rw [List.mapIdx_cons, List.zipWith_cons_cons, List.singleton_append]
    refine congrArg _ (congrArg _ ?_)
    rw [List.length_append, List.length_singleton]
    refine congrArg (fun f => List.mapIdx f locks) ?_
    funext k s
    rw [show done.length + 1 + k = done.length + (k + 1) from by omega]

theorem Mateverse.match_locks : ∀ (ins : List In) (texts : List Bytes), (∀ i ∈ ins, InOk i) → texts.length = ins.length →
    List.Forall₂ Match (setLocks (ins.map inp) texts) ins
  | [], [], _, _ => .nil
  | i :: ins, s :: texts, h, hl => by
    obtain ⟨⟨h1, h2, h3⟩, h⟩ := List.forall_mem_cons.mp h
    refine .cons ⟨Hex.decode_encode _, ?_, ?_, ?_⟩ (match_locks ins texts h (by simpa using hl))
    · show (Hex.encode i.txid).length = 64
      rw [Hex.encode_length, h1]
    · exact UInt32.toNat_ofNat_of_lt' h2
    · exact UInt32.toNat_ofNat_of_lt' h3

theorem Mateverse.locks_set : ∀ (l : List TxInput) (texts locks : List Bytes), List.Forall₂ IsLock texts locks → texts.length = l.length →
    List.Forall₂ (fun x s => IsLock x.lockScript s) (setLocks l texts) locks
  | [], [], [], _, _ => .nil
  | x :: l, s :: texts, k :: locks, .cons h hs, hl => .cons h (locks_set l texts locks hs (by simpa using hl))

/-- The inputs after all calls up to `GetSigHash`, for printed lock scripts of any length. -/
theorem Mateverse.getSigHash_eq (H : Hashes) (t : Tx) (hv : t.Valid) (texts locks : List Bytes) (hl : List.Forall₂ IsLock texts locks)
    (hlen : texts.length = t.ins.length) :
    getSigHash H (Hex.encode t.empty) (setLocks (t.ins.map inp) texts) =
      .ok (List.zipWith (fun x p => { x with lockScript := Hex.encode p.1, hash := p.2 }) (setLocks (t.ins.map inp) texts)
      (locks.mapIdx fun k s => (s, Hex.encode (H.hash .doubleSha256 (preCode t k s))))) := by
  unfold getSigHash
  rw [Hex.decode_encode, Res.bind_ok, decodeEmptyTx_eq hv, Res.bind_ok]
  simp only
  rw [sigLoop_eq H t hv.2.1 (setLocks (t.ins.map inp) texts) [] locks (match_locks t.ins texts hv.2.2.2 hlen) (locks_set _ texts locks hl (by simpa using hlen))]
  simp

theorem Mateverse.zip_proj {α β γ : Type} (f : α → β → γ) (g : γ → β) (h : ∀ a b, g (f a b) = b) : ∀ (l : List α) (m : List β), l.length = m.length →
    (List.zipWith f l m).map g = m
  | [], [], _ => rfl
  | a :: l, b :: m, e => by
    rw [List.zipWith_cons_cons, List.map_cons, h, zip_proj f g h l m (by simpa using e)]

/-- C79: for every unsigned transaction and every list of lock scripts as the node prints them, of less than 253 bytes each, the hash
computed for input k is the double SHA-256 of what input k signs. The inputs keep their ids, output and sequence numbers, and their
lock scripts are replaced by the hex form, which can be used in another call. Missing: longer scripts, see `C79_long_script_violated`. -/
theorem C79_hashes_partial (H : Hashes) (t : Tx) (hv : t.Valid) (texts locks : List Bytes) (hl : List.Forall₂ IsLock texts locks)
    (hlen : texts.length = t.ins.length) (hs : ∀ s ∈ locks, s.length < 253) :
    ∃ l l', getInputs (Hex.encode t.empty) = .ok l ∧ getSigHash H (Hex.encode t.empty) (setLocks l texts) = .ok l' ∧
      l'.map (·.hash) = locks.mapIdx (fun k s => Hex.encode (H.hash .doubleSha256 (t.preimage k s))) ∧
      l'.map (·.lockScript) = locks.map Hex.encode ∧
      List.Forall₂ (fun x y => x.txID = y.txID ∧ x.vout = y.vout ∧ x.sequence = y.sequence) l' l := by
  refine ⟨_, _, C78_inputs t hv, getSigHash_eq H t hv texts locks hl hlen, ?_, ?_, ?_⟩
  · have e : ∀ (xs : List TxInput) (m : List (Bytes × Bytes)), xs.length = m.length →
        (List.zipWith (fun x p => { x with lockScript := Hex.encode p.1, hash := p.2 }) xs m).map TxInput.hash = m.map (·.2) := by
      intro xs
      induction xs with
      | nil => intro m hm; cases m <;> simp_all
      | cons x xs ih => intro m hm; cases m with
        | nil => simp at hm
        | cons p m => simp only [List.zipWith_cons_cons, List.map_cons]; rw [ih m (by simpa using hm)]
    rw [e _ _ (by simp [setLocks, ← hl.length_eq, hlen])]
    refine List.ext_getElem (by simp) fun k h1 h2 => ?_
    simp only [List.getElem_map, List.getElem_mapIdx]
    rw [preCode_eq (hs _ (List.getElem_mem _))]
  · have e : ∀ (xs : List TxInput) (m : List (Bytes × Bytes)), xs.length = m.length →
        (List.zipWith (fun x p => { x with lockScript := Hex.encode p.1, hash := p.2 }) xs m).map TxInput.lockScript = m.map fun p => Hex.encode p.1 := by
      intro xs
      induction xs with
      | nil => intro m hm; cases m <;> simp_all
      | cons x xs ih => intro m hm; cases m with
        | nil => simp at hm
        | cons p m => simp only [List.zipWith_cons_cons, List.map_cons]; rw [ih m (by simpa using hm)]
    rw [e _ _ (by simp [setLocks, ← hl.length_eq, hlen])]
    refine List.ext_getElem (by simp) fun k h1 h2 => ?_
    simp
  · have e : ∀ (ins : List In) (texts : List Bytes) (m : List (Bytes × Bytes)), texts.length = ins.length → m.length = ins.length →
        List.Forall₂ (fun x y => x.txID = y.txID ∧ x.vout = y.vout ∧ x.sequence = y.sequence)
          (List.zipWith (fun x p => { x with lockScript := Hex.encode p.1, hash := p.2 }) (setLocks (ins.map inp) texts) m) (ins.map inp) := by
      intro ins
      induction ins with
      | nil => intro texts m h1 h2; cases texts <;> cases m <;> simp_all [setLocks]
      | cons i ins ih => intro texts m h1 h2; cases texts with
        | nil => simp at h1
        | cons s texts => cases m with
          | nil => simp at h2
          | cons p m => exact .cons ⟨rfl, rfl, rfl⟩ (ih texts m (by simpa using h1) (by simpa using h2))
    exact e t.ins texts _ hlen (by simp [← hl.length_eq, hlen])

/-- Three lock scripts of the package's test, for a transaction with three inputs. -/
example : IsLock (asc "dup hash160 [ 417699cb6919468f8f7e835aabd44b588200cec9 ] equalverify checksig")
    (p2pkhScript [0x41, 0x76, 0x99, 0xcb, 0x69, 0x19, 0x46, 0x8f, 0x8f, 0x7e, 0x83, 0x5a, 0xab, 0xd4, 0x4b, 0x58, 0x82, 0x00, 0xce, 0xc9]) := by
  have := IsLock.keyHash [0x41, 0x76, 0x99, 0xcb, 0x69, 0x19, 0x46, 0x8f, 0x8f, 0x7e, 0x83, 0x5a, 0xab, 0xd4, 0x4b, 0x58, 0x82, 0x00, 0xce, 0xc9] (by decide)
  have e : asc "dup hash160 [ " ++ Hex.encode [0x41, 0x76, 0x99, 0xcb, 0x69, 0x19, 0x46, 0x8f, 0x8f, 0x7e, 0x83, 0x5a, 0xab, 0xd4, 0x4b, 0x58, 0x82, 0x00, 0xce, 0xc9] ++
    asc " ] equalverify checksig" = asc "dup hash160 [ 417699cb6919468f8f7e835aabd44b588200cec9 ] equalverify checksig" := by decide +kernel
  rwa [e] at this

theorem Mateverse.match_zip : ∀ {xs : List TxInput} {ins : List In} (ps : List (Bytes × Bytes)), List.Forall₂ Match xs ins → ps.length = xs.length →
    List.Forall₂ Match (List.zipWith (fun x p => { x with lockScript := Hex.encode p.1, hash := p.2 }) xs ps) ins
  | [], [], [], .nil, _ => .nil
  | x :: xs, i :: ins, p :: ps, .cons h hs, hl => .cons (a := ({ x with lockScript := Hex.encode p.1, hash := p.2 } : TxInput)) h
      (match_zip ps hs (by simpa using hl))

theorem Mateverse.locks_zip : ∀ (xs : List TxInput) (ps : List (Bytes × Bytes)), ps.length = xs.length → (∀ p ∈ ps, 25 ≤ p.1.length) →
    List.Forall₂ (fun x s => IsLock x.lockScript s) (List.zipWith (fun x p => { x with lockScript := Hex.encode p.1, hash := p.2 }) xs ps) (ps.map (·.1))
  | [], [], _, _ => .nil
  | _ :: xs, p :: ps, hl, hp => .cons (.hex _ (hp p (by simp))) (locks_zip xs ps (by simpa using hl) fun q hq => hp q (by simp [hq]))

theorem Mateverse.zip_zip : ∀ (xs : List TxInput) (ps : List (Bytes × Bytes)),
    List.zipWith (fun x p => { x with lockScript := Hex.encode p.1, hash := p.2 })
      (List.zipWith (fun x p => { x with lockScript := Hex.encode p.1, hash := p.2 }) xs ps) ps =
    List.zipWith (fun (x : TxInput) (p : Bytes × Bytes) => { x with lockScript := Hex.encode p.1, hash := p.2 }) xs ps
  | [], _ => by simp
  | _ :: _, [] => by simp
  | x :: xs, p :: ps => by simp only [List.zipWith_cons_cons]; rw [zip_zip xs ps]

/-- C79: asking for the hashes again, with the inputs as the first call left them, changes nothing: neither the hashes nor the lock scripts.
Lock scripts of any length. -/
theorem C79_repeat (H : Hashes) (t : Tx) (hv : t.Valid) (texts locks : List Bytes) (hl : List.Forall₂ IsLock texts locks)
    (hlen : texts.length = t.ins.length) (l l' : List TxInput) (hi : getInputs (Hex.encode t.empty) = .ok l)
    (h : getSigHash H (Hex.encode t.empty) (setLocks l texts) = .ok l') : getSigHash H (Hex.encode t.empty) l' = .ok l' := by
  rw [C78_inputs t hv] at hi
  cases hi
  have e := getSigHash_eq H t hv texts locks hl hlen
  rw [show (t.ins.map fun i => (⟨Hex.encode i.txid, UInt32.ofNat i.vout, [], UInt32.ofNat i.sequence, [], [], []⟩ : TxInput)) = t.ins.map inp from rfl, e] at h
  cases h
  have hm := match_locks t.ins texts hv.2.2.2 hlen
  have hpl : (locks.mapIdx fun k s => (s, Hex.encode (H.hash .doubleSha256 (preCode t k s)))).length = (setLocks (t.ins.map inp) texts).length := by
    simp [setLocks, hlen, ← hl.length_eq]
  have hfst : (locks.mapIdx fun k s => (s, Hex.encode (H.hash .doubleSha256 (preCode t k s)))).map (·.1) = locks := by
    refine List.ext_getElem (by simp) fun k h1 h2 => ?_
    simp
  have h25 : ∀ p ∈ (locks.mapIdx fun k s => (s, Hex.encode (H.hash .doubleSha256 (preCode t k s)))), 25 ≤ p.1.length := by
    intro p hp
    have hmem : p.1 ∈ locks := by rw [← hfst]; exact List.mem_map_of_mem hp
    obtain ⟨text, _, ht⟩ := Elastos.forall₂_mem hl p.1 hmem
    exact (isLock_facts ht).2
  have hlk := locks_zip _ _ hpl h25
  rw [hfst] at hlk
  unfold getSigHash
  rw [Hex.decode_encode, Res.bind_ok, decodeEmptyTx_eq hv, Res.bind_ok]
  simp only
  rw [sigLoop_eq H t hv.2.1 _ [] locks (match_zip _ hm hpl) hlk]
  simp only [List.nil_append, List.length_nil, Nat.zero_add]
  rw [zip_zip]

/-- Two calls for the inputs of `demo`, one with a printed script and one with a hex one. -/
example : (do
    let l ← getInputs (Hex.encode demo.empty)
    let l' ← getSigHash toyHashes (Hex.encode demo.empty)
      (setLocks l [asc "dup hash160 [ " ++ Hex.encode (List.replicate 20 7) ++ asc " ] equalverify checksig", Hex.encode (List.replicate 30 1)])
    let l'' ← getSigHash toyHashes (Hex.encode demo.empty) l'
    Res.ok (decide (l'' = l' ∧ l'.map TxInput.hash ≠ l.map TxInput.hash))) = .ok true := by decide +kernel

/-- Where C79 fails: for a lock script of 253 bytes or more the hash is computed from bytes other than those input k signs. -/
theorem C79_long_script_violated (H : Hashes) (t : Tx) (hv : t.Valid) (texts locks : List Bytes) (hl : List.Forall₂ IsLock texts locks)
    (hlen : texts.length = t.ins.length) (k : Nat) (s : Bytes) (hk : locks[k]? = some s) (hs : 253 ≤ s.length) :
    ∃ l l' x pre, getInputs (Hex.encode t.empty) = .ok l ∧ getSigHash H (Hex.encode t.empty) (setLocks l texts) = .ok l' ∧ l'[k]? = some x ∧
      x.hash = Hex.encode (H.hash .doubleSha256 pre) ∧ pre ≠ t.preimage k s := by
  have hkl : k < locks.length := (List.getElem?_eq_some_iff.mp hk).1
  have hl2 := hl.length_eq
  have hx : k < (setLocks (t.ins.map inp) texts).length := by simp [setLocks]; omega
  refine ⟨_, _, { (setLocks (t.ins.map inp) texts)[k] with lockScript := Hex.encode s, hash := Hex.encode (H.hash .doubleSha256 (preCode t k s)) }, preCode t k s,
    C78_inputs t hv, getSigHash_eq H t hv texts locks hl hlen, ?_, rfl, preCode_ne hs t k (by omega)⟩
  rw [List.getElem?_zipWith, List.getElem?_eq_getElem hx, List.getElem?_mapIdx, hk]
  rfl

example : List.Forall₂ IsLock [Hex.encode (List.replicate 300 1), Hex.encode (List.replicate 30 1)] [List.replicate 300 1, List.replicate 30 1] ∧
    demo.ins.length = 2 :=
  ⟨.cons (.hex _ (by rw [List.length_replicate]; omega)) (.cons (.hex _ (by rw [List.length_replicate]; omega)) .nil), rfl⟩

/-! ### C80 -/

theorem Mateverse.unlock_all {E : Btc.Curve} {l : List TxInput} {us : List Bytes}
    (hus : List.Forall₂ (fun x u => ∃ pub sig, Hex.decode x.pubkey = .ok pub ∧ Hex.decode x.signature = .ok sig ∧
        beNat (sig.take 32) ≠ 0 ∧ beNat (sig.drop 32) ≠ 0 ∧ IsUnlock sig pub u) l us)
    (hall : ∀ x ∈ l, verifyHash E x.pubkey x.hash x.signature = .ok true) :
    List.Forall₂ (fun x u => ∃ pub hash sig p0 p, Hex.decode x.pubkey = .ok pub ∧ Hex.decode x.hash = .ok hash ∧
        Hex.decode x.signature = .ok sig ∧ pub.length = 33 ∧ hash.length = 32 ∧ sig.length = 64 ∧ E.decompress pub = p0 :: p ∧
        E.verify p hash sig = true ∧ beNat (sig.take 32) ≠ 0 ∧ beNat (sig.drop 32) ≠ 0 ∧ IsUnlock sig pub u) l us := by
  induction hus with
  | nil => exact .nil
  | cons hu _ ih =>
    obtain ⟨hx, hxs⟩ := List.forall_mem_cons.mp hall
    refine .cons ?_ (ih hxs)
    obtain ⟨pub, sig, e1, e2, n1, n2, hu⟩ := hu
    obtain ⟨pub', hb, sig', p0, p, g1, g2, g3, c⟩ := (verifyHash_iff ..).mp hx
    rw [e1] at g1
    rw [e2] at g3
    cases g1
    cases g3
    exact ⟨pub, hb, sig, p0, p, e1, g2, e2, c.1, c.2.1, c.2.2.1, c.2.2.2.1, c.2.2.2.2, n1, n2, hu⟩

/-- C80: combining succeeds exactly when every input carries a 64-byte signature (both halves nonzero) and a 33-byte key that verify for its
hash, and the result is the transaction with these signatures and keys as scripts. -/
theorem C80_combine (E : Btc.Curve) (t : Tx) (hv : t.Valid) (l : List TxInput) (out : Bytes)
    (hl : List.Forall₂ (fun x i => Hex.decode x.txID = .ok i.txid ∧ x.vout.toNat = i.vout ∧ x.sequence.toNat = i.sequence) l t.ins) :
    verifyAndCombine E (Hex.encode t.empty) l = .ok (true, out) ↔
      ∃ us, List.Forall₂ (fun x u => ∃ pub hash sig p0 p, Hex.decode x.pubkey = .ok pub ∧ Hex.decode x.hash = .ok hash ∧
        Hex.decode x.signature = .ok sig ∧ pub.length = 33 ∧ hash.length = 32 ∧ sig.length = 64 ∧ E.decompress pub = p0 :: p ∧
        E.verify p hash sig = true ∧ beNat (sig.take 32) ≠ 0 ∧ beNat (sig.drop 32) ≠ 0 ∧ IsUnlock sig pub u) l us ∧
      out = Hex.encode (t.wire us) := by
  have hm : List.Forall₂ Match l t.ins := by
    obtain ⟨_, _, _, h4⟩ := hv
    revert hl h4
    generalize t.ins = ins
    intro hl h4
    induction hl with
    | nil => exact .nil
    | cons h _ ih =>
      obtain ⟨a, b⟩ := List.forall_mem_cons.mp h4
      refine .cons ⟨h.1, ?_, h.2.1, h.2.2⟩ (ih b)
      rw [Hex.decode_length _ _ h.1, a.1]
  have hc : ∀ r, leBytes 4 4 ++ countBytes l.length ++ r ++ t.tail = leBytes 4 4 ++ compactSize t.ins.length ++ r ++ t.tail := by
    intro r; rw [hm.length_eq, countBytes_eq hv.2.1]
  unfold verifyAndCombine
  constructor
  · intro h
    obtain ⟨ok, h1, h⟩ := Res.bind_eq_ok.mp h
    cases ok
    · simp at h
    have hall := (verifyAll_iff E l).mp h1
    rw [if_pos rfl] at h
    unfold getSubmitBytes at h
    rw [Hex.decode_encode, Res.bind_ok, decodeEmptyTx_eq hv, Res.bind_ok] at h
    simp only at h
    split at h
    · rename_i tx htx
      cases h
      obtain ⟨r, hr, htx⟩ := Res.bind_eq_ok.mp htx
      cases htx
      obtain ⟨us, hus, rfl⟩ := (submitLoop_iff r hm hall).mp hr
      exact ⟨us, unlock_all hus hall, by rw [hc]; rfl⟩
    · cases h
    · cases h
  · rintro ⟨us, hus, rfl⟩
    have hall : ∀ x ∈ l, verifyHash E x.pubkey x.hash x.signature = .ok true := by
      intro x hx
      obtain ⟨u, _, pub, hb, sig, p0, p, g⟩ := Elastos.forall₂_mem hus.flip x hx
      exact (verifyHash_iff ..).mpr ⟨pub, hb, sig, p0, p, g.1, g.2.1, g.2.2.1, g.2.2.2.1, g.2.2.2.2.1, g.2.2.2.2.2.1, g.2.2.2.2.2.2.1, g.2.2.2.2.2.2.2.1⟩
    rw [(verifyAll_iff E l).mpr hall, Res.bind_ok, if_pos rfl]
    unfold getSubmitBytes
    rw [Hex.decode_encode, Res.bind_ok, decodeEmptyTx_eq hv, Res.bind_ok]
    simp only
    rw [(submitLoop_iff _ hm hall).mpr ⟨us, hus.imp fun x u ⟨pub, hb, sig, p0, p, g⟩ =>
      ⟨pub, sig, g.1, g.2.2.1, g.2.2.2.2.2.2.2.2.1, g.2.2.2.2.2.2.2.2.2.1, g.2.2.2.2.2.2.2.2.2.2⟩, rfl⟩, Res.bind_ok, hc]
    rfl

example : (verifyAndCombine ⟨fun _ => [4, 1], fun _ _ _ => true⟩ (Hex.encode demo.empty)
    (demo.ins.map fun i => { inp i with hash := Hex.encode (List.replicate 32 9), signature := Hex.encode (List.replicate 64 3), pubkey := Hex.encode (List.replicate 33 2) }) >>=
      fun r => Res.ok r.1) = .ok true := by decide +kernel

/-! ### C55 -/

/-- C55 for this package, restricted: success means that every input of the list given carries a signature that verifies for the hash stored
in that input. Missing: the list is not compared with the transaction, and the hash is not recomputed, see the next two theorems. -/
theorem C55_mateverse_partial (E : Btc.Curve) (text : Bytes) (l : List TxInput) (out : Bytes) (h : verifyAndCombine E text l = .ok (true, out)) :
    ∀ x ∈ l, ∃ pub hash sig p0 p, Hex.decode x.pubkey = .ok pub ∧ Hex.decode x.hash = .ok hash ∧ Hex.decode x.signature = .ok sig ∧
      pub.length = 33 ∧ hash.length = 32 ∧ sig.length = 64 ∧ E.decompress pub = p0 :: p ∧ E.verify p hash sig = true := by
  unfold verifyAndCombine at h
  obtain ⟨ok, h1, h⟩ := Res.bind_eq_ok.mp h
  cases ok
  · simp at h
  exact fun x hx => (verifyHash_iff ..).mp ((verifyAll_iff E l).mp h1 x hx)

/-- Where C55 fails (a): with an empty list of inputs every unsigned transaction is accepted, and a transaction without inputs is returned. -/
theorem C55_mateverse_empty_violated (E : Btc.Curve) (t : Tx) (hv : t.Valid) :
    verifyAndCombine E (Hex.encode t.empty) [] = .ok (true, Hex.encode (leBytes 4 4 ++ [0] ++ t.tail)) := by
  unfold verifyAndCombine getSubmitBytes
  rw [verifyAll, Res.bind_ok, if_pos rfl, Hex.decode_encode, Res.bind_ok, decodeEmptyTx_eq hv, Res.bind_ok]
  simp only [submitLoop, Res.bind_ok, List.append_nil]
  rfl

/-- Where C55 fails (b): the signatures are not tied to the transaction. Inputs accepted with one transaction are accepted with every other
one, and the result pays what the other one pays. -/
theorem C55_mateverse_swap_violated (E : Btc.Curve) (t t' : Tx) (hv : t.Valid) (hv' : t'.Valid) (l : List TxInput) (out : Bytes)
    (h : verifyAndCombine E (Hex.encode t.empty) l = .ok (true, out)) :
    ∃ r, out = Hex.encode (r ++ t.tail) ∧ verifyAndCombine E (Hex.encode t'.empty) l = .ok (true, Hex.encode (r ++ t'.tail)) := by
  unfold verifyAndCombine at h ⊢
  obtain ⟨ok, h1, h⟩ := Res.bind_eq_ok.mp h
  cases ok
  · simp at h
  rw [if_pos rfl] at h
  rw [h1, Res.bind_ok, if_pos rfl]
  unfold getSubmitBytes at h ⊢
  rw [Hex.decode_encode, Res.bind_ok, decodeEmptyTx_eq hv, Res.bind_ok] at h
  rw [Hex.decode_encode, Res.bind_ok, decodeEmptyTx_eq hv', Res.bind_ok]
  simp only at h ⊢
  match hs : submitLoop l with
  | .ok r =>
    rw [hs, Res.bind_ok] at h
    rw [Res.bind_ok]
    cases h
    exact ⟨_, rfl, rfl⟩
  | .err => rw [hs] at h; cases h
  | .panic => rw [hs] at h; cases h

/-! ### C77 -/

/-- C77 for this package, with the same restriction: `n - s` is at least 2^240 when it is used. -/
theorem C77_mateverse_low_s_partial (sign : Bytes → Bytes → Option Bytes) (hash key sig : Bytes) (h : hash.length = 32) (hk : key.length = 32)
    (hs : sign hash key = some sig) (hl : sig.length = 64) (hlt : beNat (sig.drop 32) < Btc.curveOrder)
    (h240 : Btc.curveOrder / 2 < beNat (sig.drop 32) → 2 ^ 240 ≤ Btc.curveOrder - beNat (sig.drop 32)) :
    Mateverse.signTransaction sign (Hex.encode hash) key =
      .ok (Hex.encode (sig.take 32 ++ beBytes 32 (min (beNat (sig.drop 32)) (Btc.curveOrder - beNat (sig.drop 32))))) := by
  have := C77_low_s_partial sign hash key sig h hs hl hlt h240
  unfold HyperCash.signTransaction at this
  unfold Mateverse.signTransaction
  rw [Hex.decode_encode, Res.bind_ok, if_neg (by simpa using h), hs] at this
  rw [Hex.decode_encode, Res.bind_ok, if_neg (by simpa using h), if_neg (by simpa using hk), hs]
  simp only at this ⊢
  rw [Res.ok.inj this]

/-- Where C77 fails in this package: as in `C77_low_s_violated`. -/
theorem C77_mateverse_low_s_violated (sign : Bytes → Bytes → Option Bytes) (hash key sig : Bytes) (h : hash.length = 32) (hk : key.length = 32)
    (hs : sign hash key = some sig) (hl : sig.length = 64) (hlt : beNat (sig.drop 32) < Btc.curveOrder)
    (hsmall : Btc.curveOrder - beNat (sig.drop 32) < 2 ^ 240) :
    ∃ out, Mateverse.signTransaction sign (Hex.encode hash) key = .ok (Hex.encode out) ∧ out.length = 64 ∧
      beNat (out.drop 32) ≠ Btc.curveOrder - beNat (sig.drop 32) ∧ beNat (out.drop 32) ≠ beNat (sig.drop 32) := by
  obtain ⟨out, e, r⟩ := C77_low_s_violated sign hash key sig h hs hl hlt hsmall
  refine ⟨out, ?_, r⟩
  unfold HyperCash.signTransaction at e
  unfold Mateverse.signTransaction
  rw [Hex.decode_encode, Res.bind_ok, if_neg (by simpa using h), hs] at e
  rw [Hex.decode_encode, Res.bind_ok, if_neg (by simpa using h), if_neg (by simpa using hk), hs]
  simp only at e ⊢
  rw [Res.ok.inj e]

end Verif
