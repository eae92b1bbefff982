import Verif.Lemmas.BtcLike
import Verif.Props.BtcVerify

/-! Lemmas about `btcLikeTxDriver`: signatures in witnesses and unlocking scripts, hashes. -/

namespace Verif.BtcLike
open Verif Verif.Spec
open _root_.Verif.Btc (Vin Vout TxOut Curve takeN take1 concatAll takeN_append concatAll_ok compactSize_small)

/-- The sign byte in front of an integer whose top bit is set. -/
def signByte (x : Bytes) : Bytes := match x with | [] => [] | a :: _ => if a ≥ 0x80 then [0x00] else []
/-- The content of a DER integer as `witness.go` writes it. -/
def widen (x : Bytes) : Bytes := signByte x ++ x

theorem signByte_cases (x : Bytes) : signByte x = [] ∨ signByte x = [0x00] := by
  unfold signByte
  split
  · exact .inl rfl
  · split
    · exact .inr rfl
    · exact .inl rfl

theorem witnessInt_eq {x : Bytes} (h : x ≠ []) : witnessInt x = .ok (widen x) := by
  match x, h with
  | a :: t, _ =>
    simp only [witnessInt, widen, signByte]
    split <;> simp

theorem widen_der {x : Bytes} (hl : x.length = 32) (h : 2 ^ 247 ≤ beNat x) : IsDerInt (widen x) (beNat x) := by
  match x, hl with
  | a :: b :: t, hl =>
    have ht : t.length = 30 := by simpa using hl
    unfold widen signByte
    simp only
    split
    · rename_i ha
      rw [ge_iff_le, UInt8.le_iff_toNat_le] at ha
      refine ⟨by simp [beNat_cons], by simp, by simp, ?_⟩
      intro y q e
      simp only [List.cons_append, List.nil_append, List.cons.injEq, true_and] at e
      rw [← e.1]; exact ha
    · rename_i ha
      rw [ge_iff_le, UInt8.le_iff_toNat_le] at ha
      refine ⟨by simp, by simp, ?_, ?_⟩
      · intro y hy; simp at hy; subst hy; simp at ha ⊢; omega
      · intro y q e
        simp only [List.nil_append, List.cons.injEq] at e
        obtain ⟨rfl, rfl, rfl⟩ := e
        by_contra hb
        rw [beNat_cons, beNat_cons] at h
        have := beNat_lt t
        rw [ht] at this h
        simp at h
        have h2 : b.toNat * 256 ^ 30 ≤ 127 * 256 ^ 30 := Nat.mul_le_mul_right _ (by omega)
        norm_num at h h2 this
        omega

theorem witnessScript_eq {sig pub : Bytes} (hl : sig.length = 64) (ty : UInt8) :
    witnessScript sig pub ty = .ok (push (derSig (widen (sig.take 32)) (widen (sig.drop 32)) ++ [ty]) ++ push pub) := by
  have h1 : sig.take 32 ≠ [] := List.ne_nil_of_length_pos (by rw [List.length_take]; omega)
  have h2 : sig.drop 32 ≠ [] := List.ne_nil_of_length_pos (by rw [List.length_drop]; omega)
  unfold witnessScript
  rw [slice_ok (by omega) (by omega)]
  simp only [List.drop_zero, Res.bind_ok, witnessInt_eq h1, witnessInt_eq h2]
  simp [push, derSig]

theorem widen_length {x : Bytes} (hl : x.length = 32) : (widen x).length = 32 ∨ (widen x).length = 33 := by
  rcases signByte_cases x with h | h <;> simp [widen, h, hl]

theorem encodeWitness_none (p : Bytes) : encodeWitness ⟨none, p⟩ = .ok (stackBytes []) := by
  simp [encodeWitness, stackBytes, compactSize]

theorem encodeWitness_some {sig pub : Bytes} (hl : sig.length = 64) (hp : pub.length = 33) :
    encodeWitness ⟨some sig, pub⟩ = .ok (stackBytes [derSig (widen (sig.take 32)) (widen (sig.drop 32)) ++ [1], pub]) := by
  unfold encodeWitness
  simp only
  rw [witnessScript_eq hl, Res.bind_ok]
  have h1 := widen_length (x := sig.take 32) (by simp; omega)
  have h2 := widen_length (x := sig.drop 32) (by simp; omega)
  have h3 : (derSig (widen (sig.take 32)) (widen (sig.drop 32)) ++ [1]).length < 253 := by simp [derSig]; omega
  simp only [stackBytes, varBytes, compactSize_small h3, compactSize_small (n := pub.length) (by omega), List.map_cons, List.map_nil,
    List.flatten_cons, List.flatten_nil, List.length_cons, List.length_nil]
  rw [compactSize_small (by omega)]
  simp [push]

theorem decodeWitness_none (r : Bytes) : decodeWitness (stackBytes [] ++ r) = .ok ([⟨none, []⟩], r) := by
  simp [decodeWitness, stackBytes, compactSize, Btc.take1]

theorem get_at {l p q : Bytes} {x : UInt8} {n : Nat} (h : l = p ++ x :: q) (hn : p.length = n) : l[n]? = some x := by
  subst h; subst hn; simp

theorem cut_at {l p q t : Bytes} {n m : Nat} (h : l = p ++ (q ++ t)) (hn : p.length = n) (hm : q.length = m) : (l.drop n).take m = q := by
  subst h; subst hn; subst hm; simp

theorem witnessStart_ok {l p z r t : Bytes} {n : Nat} (h : l = p ++ (z ++ r ++ t)) (hn : p.length = n) (hz : z = [] ∨ z = [0]) (hr : r.length = 32) :
    witnessStart l (UInt8.ofNat (z ++ r).length) n = some (n + z.length) := by
  unfold witnessStart
  rcases hz with rfl | rfl
  · simp [hr]
  · have e1 : l[n]? = some 0 := get_at (p := p) (q := r ++ t) (by simp [h]) hn
    rw [if_pos (by simp [hr]), e1]
    match r, hr with
    | y :: q, hr =>
      have e2 : l[n + 1]? = some y := get_at (p := p ++ [0]) (q := q ++ t) (by simp [h]) (by simp [hn])
      rw [e2]
      simp

theorem decodeSegwit_ok {a r b s pub : Bytes} (ha : a = [] ∨ a = [0]) (hb : b = [] ∨ b = [0]) (hr : r.length = 32) (hs : s.length = 32)
    (hp : pub.length = 33) :
    decodeSegwit (push (derSig (a ++ r) (b ++ s) ++ [1]) ++ push pub) = some (r ++ s, pub) := by
  have la : a.length ≤ 1 := by rcases ha with rfl | rfl <;> simp
  have lb : b.length ≤ 1 := by rcases hb with rfl | rfl <;> simp
  generalize hX : push (derSig (a ++ r) (b ++ s) ++ [1]) ++ push pub = X
  have e : X = [UInt8.ofNat (a.length + b.length + 71), 0x30, UInt8.ofNat (a.length + b.length + 68), 2, UInt8.ofNat (a ++ r).length] ++
      (a ++ r ++ ([2, UInt8.ofNat (b ++ s).length] ++ (b ++ s ++ ([1, 0x21] ++ pub)))) := by
    have n1 : (derSig (a ++ r) (b ++ s) ++ [1]).length = a.length + b.length + 71 := by simp [derSig, hr, hs]; omega
    have n2 : ([0x02, UInt8.ofNat (a ++ r).length] ++ (a ++ r) ++ [0x02, UInt8.ofNat (b ++ s).length] ++ (b ++ s)).length =
        a.length + b.length + 68 := by simp [hr, hs]; omega
    rw [← hX]
    unfold push
    rw [n1, hp]
    unfold derSig
    simp only
    rw [n2]
    generalize UInt8.ofNat (a ++ r).length = u1
    generalize UInt8.ofNat (b ++ s).length = u2
    generalize UInt8.ofNat (a.length + b.length + 71) = u3
    generalize UInt8.ofNat (a.length + b.length + 68) = u4
    simp only [List.append_assoc, List.cons_append, List.nil_append]
    rfl
  have hlen : X.length = a.length + b.length + 106 := by rw [e]; simp [hr, hs, hp]; omega
  clear hX
  have f0 : X[0]? = some (UInt8.ofNat (a.length + b.length + 71)) := by rw [e]; rfl
  have f1 : X[1]? = some 0x30 := by rw [e]; rfl
  have f2 : X[2]? = some (UInt8.ofNat (a.length + b.length + 68)) := by rw [e]; rfl
  have f3 : X[3]? = some 2 := by rw [e]; rfl
  have f4 : X[4]? = some (UInt8.ofNat (a ++ r).length) := by rw [e]; rfl
  have f5 : witnessStart X (UInt8.ofNat (a ++ r).length) 5 = some (5 + a.length) := witnessStart_ok e rfl ha hr
  generalize hh : [UInt8.ofNat (a.length + b.length + 71), 0x30, UInt8.ofNat (a.length + b.length + 68), 2, UInt8.ofNat (a ++ r).length] = hd at e
  have lhd : hd.length = 5 := by rw [← hh]; rfl
  have f6 : X[5 + a.length + 32]? = some 2 :=
    get_at (p := hd ++ a ++ r) (q := UInt8.ofNat (b ++ s).length :: (b ++ s ++ ([1, 0x21] ++ pub))) (by simp [e]) (by simp [lhd, hr]; try omega)
  have f7 : X[5 + a.length + 33]? = some (UInt8.ofNat (b ++ s).length) :=
    get_at (p := hd ++ a ++ r ++ [2]) (q := b ++ s ++ ([1, 0x21] ++ pub)) (by simp [e]) (by simp [lhd, hr]; try omega)
  have f8 : witnessStart X (UInt8.ofNat (b ++ s).length) (5 + a.length + 34) = some (5 + a.length + 34 + b.length) :=
    witnessStart_ok (p := hd ++ a ++ r ++ [2, UInt8.ofNat (b ++ s).length]) (t := [1, 0x21] ++ pub) (by simp [e]) (by simp [lhd, hr]; try omega) hb hs
  have f9 : X[5 + a.length + 34 + b.length + 32]? = some 1 :=
    get_at (p := hd ++ a ++ r ++ [2, UInt8.ofNat (b ++ s).length] ++ b ++ s) (q := 0x21 :: pub) (by simp [e]) (by simp [lhd, hr, hs]; try omega)
  have f10 : X[5 + a.length + 34 + b.length + 33]? = some 0x21 :=
    get_at (p := hd ++ a ++ r ++ [2, UInt8.ofNat (b ++ s).length] ++ b ++ s ++ [1]) (q := pub) (by simp [e]) (by simp [lhd, hr, hs]; try omega)
  have g1 : (X.drop (5 + a.length)).take 32 = r :=
    cut_at (p := hd ++ a) (t := [2, UInt8.ofNat (b ++ s).length] ++ (b ++ s ++ ([1, 0x21] ++ pub))) (by simp [e]) (by simp [lhd]) hr
  have g2 : (X.drop (5 + a.length + 34 + b.length)).take 32 = s :=
    cut_at (p := hd ++ a ++ r ++ [2, UInt8.ofNat (b ++ s).length] ++ b) (t := [1, 0x21] ++ pub) (by simp [e]) (by simp [lhd, hr]; try omega) hs
  have g3 : (X.drop (5 + a.length + 34 + b.length + 34)).take 33 = pub :=
    cut_at (p := hd ++ a ++ r ++ [2, UInt8.ofNat (b ++ s).length] ++ b ++ s ++ [1, 0x21]) (t := []) (by simp [e]) (by simp [lhd, hr, hs]; try omega) hp
  have c1 : UInt8.ofNat (a ++ r).length + UInt8.ofNat (b ++ s).length + 4 = UInt8.ofNat (a.length + b.length + 68) := by
    rcases ha with rfl | rfl <;> rcases hb with rfl | rfl <;> simp [hr, hs]
  have c2 : UInt8.ofNat (a.length + b.length + 68) + 3 = UInt8.ofNat (a.length + b.length + 71) := by
    rcases ha with rfl | rfl <;> rcases hb with rfl | rfl <;> simp
  have c3 : UInt8.ofNat (a.length + b.length + 71) + 0x21 + 2 = UInt8.ofNat X.length := by
    rw [hlen]; rcases ha with rfl | rfl <;> rcases hb with rfl | rfl <;> simp
  unfold decodeSegwit
  simp only [f0, f1, f2, f3, f4, f5, f6, f7, f8, f9, f10, Option.bind_eq_bind, Option.bind_some, ne_eq, not_true_eq_false, if_false, c1, c2, c3,
    or_self, g1, g2, g3]
  rw [if_neg (by omega)]

theorem decodeWitness_some {sig pub : Bytes} (hl : sig.length = 64) (hp : pub.length = 33) (t : Bytes) :
    decodeWitness (stackBytes [derSig (widen (sig.take 32)) (widen (sig.drop 32)) ++ [1], pub] ++ t) = .ok ([⟨some sig, pub⟩], t) := by
  have l1 : (sig.take 32).length = 32 := by simp; omega
  have l2 : (sig.drop 32).length = 32 := by simp; omega
  have h1 := widen_length l1
  have h2 := widen_length l2
  have hd := decodeSegwit_ok (signByte_cases (sig.take 32)) (signByte_cases (sig.drop 32)) l1 l2 hp
  change decodeSegwit (push (derSig (widen (sig.take 32)) (widen (sig.drop 32)) ++ [1]) ++ push pub) = _ at hd
  generalize hD : derSig (widen (sig.take 32)) (widen (sig.drop 32)) ++ [1] = D at *
  have h3 : D.length < 253 := by rw [← hD]; simp [derSig]; omega
  have h4 : (UInt8.ofNat D.length).toNat = D.length := by simp; omega
  have e : stackBytes [D, pub] ++ t = 2 :: (push D ++ push pub ++ t) := by
    simp only [stackBytes, varBytes, compactSize_small h3, compactSize_small (n := pub.length) (by omega), List.map_cons, List.map_nil,
      List.flatten_cons, List.flatten_nil, List.length_cons, List.length_nil]
    rw [compactSize_small (by omega)]
    simp [push]
  rw [e, decodeWitness, take1_cons, Res.bind_ok]
  simp only [if_neg (show ¬ (2 : UInt8) = 0 by decide), if_true]
  have e2 : push D ++ push pub ++ t = UInt8.ofNat D.length :: (D ++ push pub ++ t) := by simp [push]
  rw [e2, take1_cons, Res.bind_ok, ← e2]
  simp only [h4]
  rw [takeN_append _ _ (by simp [push, hp]), Res.bind_ok]
  simp only [hd, List.take_append_drop]

end Verif.BtcLike
