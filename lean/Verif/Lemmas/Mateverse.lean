import Verif.Model.Mateverse
import Verif.Spec.Mateverse
import Verif.Lemmas.HyperCash

/-! Lemmas about the model of package `mateverseTransaction`. -/

namespace Verif.Mateverse
open Verif Verif.Spec Verif.Spec.Mateverse

/-! ### `ReplaceAll` -/

theorem replace_skip (old new : Bytes) : ∀ (a t : Bytes), replaceFrom old new a.length (a ++ t) = replaceFrom old new 0 t
  | [], _ => rfl
  | _ :: a, t => by
    rw [List.length_cons, List.cons_append, replaceFrom]
    exact replace_skip old new a t

theorem replace_hit (c : UInt8) (old new t : Bytes) : replaceFrom (c :: old) new 0 (c :: old ++ t) = new ++ replaceFrom (c :: old) new 0 t := by
  rw [List.cons_append, replaceFrom, if_pos]
  · rw [List.length_cons, Nat.add_sub_cancel, replace_skip]
  · rw [← List.cons_append, List.isPrefixOf_iff_prefix]
    exact List.prefix_append _ _

theorem replace_pass1 (c : UInt8) (old new : Bytes) : ∀ (s t : Bytes), c ∉ s → replaceFrom (c :: old) new 0 (s ++ t) = s ++ replaceFrom (c :: old) new 0 t
  | [], _, _ => rfl
  | x :: s, t, h => by
    have hx : x ≠ c := fun e => h (by simp [e])
    rw [List.cons_append, replaceFrom, if_neg (by simp [List.isPrefixOf, hx.symm]), List.cons_append,
      replace_pass1 c old new s t (fun hc => h (by simp [hc]))]

theorem replace_pass (c d : UInt8) (old new : Bytes) : ∀ (s t : Bytes), d ∉ s → t.head? ≠ some d →
    replaceFrom (c :: d :: old) new 0 (s ++ t) = s ++ replaceFrom (c :: d :: old) new 0 t
  | [], _, _, _ => rfl
  | x :: s, t, h, ht => by
    rw [List.cons_append, replaceFrom, if_neg, List.cons_append, replace_pass c d old new s t (fun hc => h (by simp [hc])) ht]
    match s, t with
    | [], [] => simp [List.isPrefixOf]
    | [], y :: t =>
      have : d ≠ y := fun e => ht (by simp [e])
      simp [List.isPrefixOf, this]
    | y :: s, t =>
      have : d ≠ y := fun e => h (by simp [e])
      simp [List.isPrefixOf, this]

theorem replace_pass_end (c d : UInt8) (old new s : Bytes) (h : d ∉ s) : replaceFrom (c :: d :: old) new 0 s = s := by
  have := replace_pass c d old new s [] h (by simp)
  simpa [replaceFrom] using this

theorem replace_pass1_end (c : UInt8) (old new s : Bytes) (h : c ∉ s) : replaceFrom (c :: old) new 0 s = s := by
  have := replace_pass1 c old new s [] h
  simpa [replaceFrom] using this

theorem replace_remove (c : UInt8) : ∀ s : Bytes, replaceFrom [c] [] 0 s = s.filter (· ≠ c)
  | [] => rfl
  | x :: s => by
    rw [replaceFrom]
    by_cases h : c = x
    · subst h
      rw [if_pos (by simp [List.isPrefixOf])]
      simp [replace_remove]
    · rw [if_neg (by simp [List.isPrefixOf, h])]
      simp [replace_remove, Ne.symm h]

theorem hex_not (c : UInt8) (h : c ∉ asc "0123456789abcdef") (b : Bytes) : c ∉ Hex.encode b := by
  induction b with
  | nil => simp [Hex.encode]
  | cons x xs ih =>
    have h1 : Hex.digit (x / 16) ∈ asc "0123456789abcdef" := by
      revert x; apply Hex.u8_forall; decide +kernel
    have h2 : Hex.digit (x % 16) ∈ asc "0123456789abcdef" := by
      revert x; apply Hex.u8_forall; decide +kernel
    intro hc
    rw [Hex.encode, List.mem_cons, List.mem_cons] at hc
    rcases hc with rfl | rfl | hc
    · exact h h1
    · exact h h2
    · exact ih hc

theorem filter_hex (c : UInt8) (h : c ∉ asc "0123456789abcdef") (b : Bytes) : (Hex.encode b).filter (· ≠ c) = Hex.encode b :=
  List.filter_eq_self.mpr fun x hx => by
    simp only [decide_eq_true_eq]
    intro e
    exact hex_not c h b (e ▸ hx)

/-! ### Lock scripts -/

theorem lock_hex (s : Bytes) : getHashFromLockScript (Hex.encode s) = Hex.encode s := by
  unfold getHashFromLockScript replaceAll
  have e1 : replaceFrom (asc " ") [] 0 (Hex.encode s) = Hex.encode s := by
    rw [show asc " " = [0x20] by decide, replace_remove, filter_hex _ (by decide)]
  have e2 : replaceFrom (asc "duphash160[") (asc "76a914") 0 (Hex.encode s) = Hex.encode s :=
    replace_pass_end 0x64 0x75 _ _ _ (hex_not _ (by decide) _)
  have e3 : replaceFrom (asc "]equalverifychecksig") (asc "88ac") 0 (Hex.encode s) = Hex.encode s :=
    replace_pass1_end 0x5d _ _ _ (hex_not _ (by decide) _)
  have e4 : replaceFrom (asc "checkattenuationverify") (asc "b2") 0 (Hex.encode s) = Hex.encode s :=
    replace_pass_end 0x63 0x68 _ _ _ (hex_not _ (by decide) _)
  have e5 : replaceFrom (asc "[") [] 0 (Hex.encode s) = Hex.encode s := by
    rw [show asc "[" = [0x5b] by decide, replace_remove, filter_hex _ (by decide)]
  simp only [e1, e2, e3, e4, e5]
  rw [OwKeychain.splitOn_none _ _ (hex_not _ (by decide) _)]

/-- The steps on the part common to both printed forms. -/
theorem tail_steps (h : Bytes) :
    replaceFrom (asc "duphash160[") (asc "76a914") 0 (asc "duphash160[" ++ (Hex.encode h ++ asc "]equalverifychecksig")) =
      Hex.encode ([0x76, 0xa9, 0x14] ++ h) ++ asc "]equalverifychecksig" ∧
    replaceFrom (asc "]equalverifychecksig") (asc "88ac") 0 (Hex.encode ([0x76, 0xa9, 0x14] ++ h) ++ asc "]equalverifychecksig") =
      Hex.encode (p2pkhScript h) := by
  constructor
  · have := replace_hit 0x64 (asc "uphash160[") (asc "76a914") (Hex.encode h ++ asc "]equalverifychecksig")
    refine this.trans ?_
    have e : replaceFrom (asc "duphash160[") (asc "76a914") 0 (Hex.encode h ++ asc "]equalverifychecksig") =
        Hex.encode h ++ replaceFrom (asc "duphash160[") (asc "76a914") 0 (asc "]equalverifychecksig") :=
      replace_pass 0x64 0x75 _ _ _ _ (hex_not _ (by decide) _) (by decide)
    have e2 : replaceFrom (asc "duphash160[") (asc "76a914") 0 (asc "]equalverifychecksig") = asc "]equalverifychecksig" := by decide +kernel
    have e3 : (0x64 :: asc "uphash160[") = asc "duphash160[" := by decide
    rw [e3, e, e2, Hex.encode_append, List.append_assoc]
    rfl
  · have e : replaceFrom (asc "]equalverifychecksig") (asc "88ac") 0 (Hex.encode ([0x76, 0xa9, 0x14] ++ h) ++ asc "]equalverifychecksig") =
        Hex.encode ([0x76, 0xa9, 0x14] ++ h) ++ replaceFrom (asc "]equalverifychecksig") (asc "88ac") 0 (asc "]equalverifychecksig") :=
      replace_pass1 0x5d _ _ _ _ (hex_not _ (by decide) _)
    have e2 : replaceFrom (asc "]equalverifychecksig") (asc "88ac") 0 (asc "]equalverifychecksig") = Hex.encode [0x88, 0xac] := by decide +kernel
    rw [e, e2, ← Hex.encode_append]
    rfl

theorem lock_keyHash (h : Bytes) :
    getHashFromLockScript (asc "dup hash160 [ " ++ Hex.encode h ++ asc " ] equalverify checksig") = Hex.encode (p2pkhScript h) := by
  unfold getHashFromLockScript replaceAll
  have e1 : replaceFrom (asc " ") [] 0 (asc "dup hash160 [ " ++ Hex.encode h ++ asc " ] equalverify checksig") =
      asc "duphash160[" ++ (Hex.encode h ++ asc "]equalverifychecksig") := by
    rw [show asc " " = [0x20] by decide, replace_remove, List.filter_append, List.filter_append, filter_hex _ (by decide), List.append_assoc]
    have a1 : (asc "dup hash160 [ ").filter (· ≠ 0x20) = asc "duphash160[" := by decide +kernel
    have a2 : (asc " ] equalverify checksig").filter (· ≠ 0x20) = asc "]equalverifychecksig" := by decide +kernel
    rw [a1, a2]
  have e4 : replaceFrom (asc "checkattenuationverify") (asc "b2") 0 (Hex.encode (p2pkhScript h)) = Hex.encode (p2pkhScript h) :=
    replace_pass_end 0x63 0x68 _ _ _ (hex_not _ (by decide) _)
  have e5 : replaceFrom (asc "[") [] 0 (Hex.encode (p2pkhScript h)) = Hex.encode (p2pkhScript h) := by
    rw [show asc "[" = [0x5b] by decide, replace_remove, filter_hex _ (by decide)]
  simp only [e1, (tail_steps h).1, (tail_steps h).2, e4, e5]
  rw [OwKeychain.splitOn_none _ _ (hex_not _ (by decide) _)]

theorem lock_attenuated (m p h : Bytes) :
    getHashFromLockScript (asc "[ " ++ Hex.encode m ++ asc " ] [ " ++ Hex.encode p ++ asc " ] checkattenuationverify dup hash160 [ " ++
          Hex.encode h ++ asc " ] equalverify checksig") =
      Hex.encode ([0x4d] ++ leBytes 2 m.length ++ m ++ push p ++ [0xb2] ++ p2pkhScript h) := by
  unfold getHashFromLockScript replaceAll
  have e1 : replaceFrom (asc " ") [] 0 (asc "[ " ++ Hex.encode m ++ asc " ] [ " ++ Hex.encode p ++ asc " ] checkattenuationverify dup hash160 [ " ++
          Hex.encode h ++ asc " ] equalverify checksig") =
      asc "[" ++ Hex.encode m ++ asc "][" ++ Hex.encode p ++ (asc "]checkattenuationverify" ++ (asc "duphash160[" ++ (Hex.encode h ++ asc "]equalverifychecksig"))) := by
    rw [show asc " " = [0x20] by decide, replace_remove]
    simp only [List.filter_append, filter_hex 0x20 (by decide), List.append_assoc]
    have a1 : (asc "[ ").filter (· ≠ 0x20) = asc "[" := by decide +kernel
    have a2 : (asc " ] [ ").filter (· ≠ 0x20) = asc "][" := by decide +kernel
    have a3 : (asc " ] checkattenuationverify dup hash160 [ ").filter (· ≠ 0x20) = asc "]checkattenuationverify" ++ asc "duphash160[" := by decide +kernel
    have a4 : (asc " ] equalverify checksig").filter (· ≠ 0x20) = asc "]equalverifychecksig" := by decide +kernel
    rw [a1, a2, a3, a4]
    simp only [List.append_assoc]
  have hnot : ∀ (c : UInt8) (x y : Bytes), c ∉ asc "0123456789abcdef[]" → c ∉ asc "[" ++ Hex.encode x ++ asc "][" ++ Hex.encode y := by
    intro c x y hc
    have h1 : c ∉ asc "0123456789abcdef" := fun hm => hc (by
      have : asc "0123456789abcdef[]" = asc "0123456789abcdef" ++ asc "[]" := by decide
      rw [this]; simp [hm])
    have h2 : c ∉ asc "[]" := fun hm => hc (by
      have : asc "0123456789abcdef[]" = asc "0123456789abcdef" ++ asc "[]" := by decide
      rw [this]; simp [hm])
    have b1 : asc "[]" = [0x5b, 0x5d] := by decide
    have b2 : asc "[" = [0x5b] := by decide
    have b3 : asc "][" = [0x5d, 0x5b] := by decide
    rw [b1] at h2
    rw [b2, b3]
    have := hex_not c h1 x
    have := hex_not c h1 y
    simp_all
  have e2 : replaceFrom (asc "duphash160[") (asc "76a914") 0
      (asc "[" ++ Hex.encode m ++ asc "][" ++ Hex.encode p ++ (asc "]checkattenuationverify" ++ (asc "duphash160[" ++ (Hex.encode h ++ asc "]equalverifychecksig")))) =
      asc "[" ++ Hex.encode m ++ asc "][" ++ Hex.encode p ++ (asc "]checkattenuationverify" ++ (Hex.encode ([0x76, 0xa9, 0x14] ++ h) ++ asc "]equalverifychecksig")) := by
    refine (replace_pass 0x64 0x75 _ _ _ _ (hnot _ _ _ (by decide)) (by simp [asc])).trans (congrArg _ ?_)
    refine (replace_pass1 0x64 _ _ (asc "]checkattenuationverify") _ (by decide)).trans (congrArg _ ?_)
    exact (tail_steps h).1
  have e3 : replaceFrom (asc "]equalverifychecksig") (asc "88ac") 0
      (asc "[" ++ Hex.encode m ++ asc "][" ++ Hex.encode p ++ (asc "]checkattenuationverify" ++ (Hex.encode ([0x76, 0xa9, 0x14] ++ h) ++ asc "]equalverifychecksig"))) =
      asc "[" ++ Hex.encode m ++ asc "][" ++ Hex.encode p ++ (asc "]checkattenuationverify" ++ Hex.encode (p2pkhScript h)) := by
    have s1 : ∀ t, replaceFrom (asc "]equalverifychecksig") (asc "88ac") 0 (asc "][" ++ t) =
        asc "][" ++ replaceFrom (asc "]equalverifychecksig") (asc "88ac") 0 t := fun _ => rfl
    have s2 : ∀ t, replaceFrom (asc "]equalverifychecksig") (asc "88ac") 0 (asc "]checkattenuationverify" ++ t) =
        asc "]checkattenuationverify" ++ replaceFrom (asc "]equalverifychecksig") (asc "88ac") 0 t := fun _ => rfl
    have s0 : ∀ t, replaceFrom (asc "]equalverifychecksig") (asc "88ac") 0 (asc "[" ++ t) =
        asc "[" ++ replaceFrom (asc "]equalverifychecksig") (asc "88ac") 0 t := fun _ => rfl
    have s3 : ∀ (x t : Bytes), replaceFrom (asc "]equalverifychecksig") (asc "88ac") 0 (Hex.encode x ++ t) =
        Hex.encode x ++ replaceFrom (asc "]equalverifychecksig") (asc "88ac") 0 t :=
      fun x t => replace_pass1 0x5d _ _ _ _ (hex_not _ (by decide) _)
    have := (tail_steps h).2
    simp only [List.append_assoc, s0, s1, s2, s3] at this ⊢
    rw [this]
  have e4 : replaceFrom (asc "checkattenuationverify") (asc "b2") 0
      (asc "[" ++ Hex.encode m ++ asc "][" ++ Hex.encode p ++ (asc "]checkattenuationverify" ++ Hex.encode (p2pkhScript h))) =
      asc "[" ++ Hex.encode m ++ asc "][" ++ Hex.encode p ++ asc "]" ++ Hex.encode ([0xb2] ++ p2pkhScript h) := by
    have a : asc "[" ++ Hex.encode m ++ asc "][" ++ Hex.encode p ++ (asc "]checkattenuationverify" ++ Hex.encode (p2pkhScript h)) =
        (asc "[" ++ Hex.encode m ++ asc "][" ++ Hex.encode p ++ asc "]") ++ (asc "checkattenuationverify" ++ Hex.encode (p2pkhScript h)) := by
      simp only [List.append_assoc]
      rfl
    rw [a]
    refine (replace_pass 0x63 0x68 _ _ _ _ ?_ (by simp [asc])).trans (congrArg _ ?_)
    · rw [List.mem_append, not_or]
      exact ⟨hnot _ _ _ (by decide), by decide⟩
    refine (replace_hit 0x63 (asc "heckattenuationverify") _ _).trans ?_
    have e6 : replaceFrom (asc "checkattenuationverify") (asc "b2") 0 (Hex.encode (p2pkhScript h)) = Hex.encode (p2pkhScript h) :=
      replace_pass_end 0x63 0x68 _ _ _ (hex_not _ (by decide) _)
    have e7 : (0x63 :: asc "heckattenuationverify") = asc "checkattenuationverify" := by decide
    rw [e7, e6, Hex.encode_append]
    rfl
  have e5 : replaceFrom (asc "[") [] 0 (asc "[" ++ Hex.encode m ++ asc "][" ++ Hex.encode p ++ asc "]" ++ Hex.encode ([0xb2] ++ p2pkhScript h)) =
      Hex.encode m ++ 0x5d :: (Hex.encode p ++ 0x5d :: Hex.encode ([0xb2] ++ p2pkhScript h)) := by
    rw [show asc "[" = [0x5b] by decide, replace_remove]
    simp only [List.filter_append, filter_hex 0x5b (by decide), List.append_assoc]
    have a2 : (asc "][").filter (· ≠ 0x5b) = [0x5d] := by decide +kernel
    have a3 : (asc "]").filter (· ≠ 0x5b) = [0x5d] := by decide +kernel
    rw [a2, a3]
    rfl
  simp only [e1, e2, e3, e4, e5]
  rw [OwKeychain.splitOn_append _ _ (hex_not _ (by decide) _), OwKeychain.splitOn_append _ _ (hex_not _ (by decide) _),
    OwKeychain.splitOn_none _ _ (hex_not _ (by decide) _)]
  have hd : ∀ b : Bytes, (Hex.encode b).length / 2 = b.length := by intro b; rw [Hex.encode_length]; omega
  simp only [hd, push, ← Hex.encode_append, List.append_assoc, show asc "4d" = Hex.encode [0x4d] by decide]
  rfl

theorem lock_eq {text script : Bytes} (h : IsLock text script) : getHashFromLockScript text = Hex.encode script := by
  cases h with
  | keyHash h hh => exact lock_keyHash h
  | attenuated m p h hm hp hh => exact lock_attenuated m p h
  | hex => exact lock_hex _

/-! ### Reading the empty transaction -/

/-- What is read of an input. -/
def inp (i : In) : TxInput := ⟨Hex.encode i.txid, UInt32.ofNat i.vout, [], UInt32.ofNat i.sequence, [], [], []⟩

theorem varBytes_nil : varBytes [] = [0] := by decide

def InOk (i : In) : Prop := i.txid.length = 32 ∧ i.vout < 2 ^ 32 ∧ i.sequence < 2 ^ 32

theorem inputLoop_eq : ∀ (ins : List In) (tail : Bytes), (∀ i ∈ ins, InOk i) →
    inputLoop ins.length ((ins.map fun i => inWire i []).flatten ++ tail) = .ok (ins.map inp, tail)
  | [], _, _ => rfl
  | i :: ins, tail, h => by
    obtain ⟨⟨h1, h2, h3⟩, h⟩ := List.forall_mem_cons.mp h
    rw [List.length_cons, List.map_cons, List.flatten_cons, List.append_assoc]
    unfold inputLoop
    simp only [inWire, varBytes_nil, List.append_assoc]
    rw [Btc.takeN_append _ _ (by simp [h1]), Res.bind_ok]
    simp only
    rw [Btc.takeN_append _ _ (by simp), Res.bind_ok]
    simp only [List.cons_append, List.nil_append, Btc.take1, Res.bind_ok, ne_eq, not_true_eq_false, if_false]
    rw [Btc.takeN_append _ _ (by simp), Res.bind_ok]
    have ih := inputLoop_eq ins tail h
    simp only [inWire, varBytes_nil, List.append_assoc, List.cons_append, List.nil_append] at ih
    simp only [ih, Res.bind_ok]
    rw [List.reverse_reverse, leNat_leBytes_of_lt (by simpa using h2), leNat_leBytes_of_lt (by simpa using h3)]
    rfl

theorem inputLoop_conv : ∀ (n : Nat) (b : Bytes) (l : List TxInput) (tail : Bytes), inputLoop n b = .ok (l, tail) →
    ∃ ins : List In, ins.length = n ∧ (∀ i ∈ ins, InOk i) ∧ b = (ins.map fun i => inWire i []).flatten ++ tail ∧ l = ins.map inp
  | 0, b, l, tail, h => by
    cases h
    exact ⟨[], rfl, by simp, rfl, rfl⟩
  | n + 1, b, l, tail, h => by
    unfold inputLoop at h
    obtain ⟨⟨a1, b1⟩, g1, h⟩ := Res.bind_eq_ok.mp h
    obtain ⟨⟨a2, b2⟩, g2, h⟩ := Res.bind_eq_ok.mp h
    obtain ⟨⟨a3, b3⟩, g3, h⟩ := Res.bind_eq_ok.mp h
    simp only at h g2 g3
    split at h
    · cases h
    rename_i hz
    obtain ⟨⟨a4, b4⟩, g4, h⟩ := Res.bind_eq_ok.mp h
    obtain ⟨⟨a5, b5⟩, g5, h⟩ := Res.bind_eq_ok.mp h
    cases h
    obtain ⟨ins, e1, e2, e3, e4⟩ := inputLoop_conv n _ _ _ g5
    have t : ∀ {n : Nat} {x y z : Bytes}, Btc.takeN n x = .ok (y, z) → y.length = n ∧ x = y ++ z := by
      intro n x y z h
      unfold Btc.takeN at h
      split at h
      · cases h
      cases h
      exact ⟨by simp; omega, (List.take_append_drop _ _).symm⟩
    obtain ⟨l1, rfl⟩ := t g1
    obtain ⟨l2, rfl⟩ := t g2
    obtain ⟨l4, rfl⟩ := t g4
    have : b2 = 0 :: (a4 ++ b4) := by
      match b2, g3 with
      | x :: b2, g3 =>
        cases g3
        have : a3 = 0 := by simpa using hz
        rw [this]
    subst this
    have r2 := leNat_lt a2
    have r4 := leNat_lt a4
    rw [l2] at r2
    rw [l4] at r4
    refine ⟨⟨a1.reverse, leNat a2, leNat a4⟩ :: ins, by simp [e1], ?_, ?_, ?_⟩
    · exact List.forall_mem_cons.mpr ⟨⟨by simp [l1], by simpa using r2, by simpa using r4⟩, e2⟩
    · have q2 := leBytes_leNat a2
      have q4 := leBytes_leNat a4
      rw [l2] at q2
      rw [l4] at q4
      simp only [List.map_cons, List.flatten_cons, inWire, varBytes_nil, List.append_assoc, List.reverse_reverse, q2, q4]
      simp only [inWire, varBytes_nil, List.append_assoc] at e3
      simp only [List.cons_append, List.nil_append, e3]
    · rw [e4]; rfl

theorem countBytes_eq {n : Nat} (h : n < 2 ^ 16) : countBytes n = compactSize n := by
  unfold countBytes compactSize
  split
  · rfl
  · rw [if_pos (by omega)]

theorem inputCount_eq {n : Nat} (h0 : n ≠ 0) (h : n < 2 ^ 16) (b : Bytes) : inputCount (compactSize n ++ b) = .ok (n, b) := by
  unfold inputCount compactSize
  by_cases hn : n < 0xfd
  · rw [if_pos hn, List.cons_append, List.nil_append, Btc.take1, Res.bind_ok]
    have e : (UInt8.ofNat n).toNat = n := UInt8.toNat_ofNat_of_lt' (by show _ < 256; omega)
    simp only [e]
    rw [if_pos (by intro hc; rw [hc] at e; have : (0xfd : UInt8).toNat = 253 := rfl; omega), if_neg h0]
  · rw [if_neg hn, if_pos (by omega), List.cons_append, Btc.take1, Res.bind_ok]
    simp only [ne_eq, not_true_eq_false, if_false]
    rw [Btc.takeN_append _ _ (by simp), Res.bind_ok, leNat_leBytes_of_lt (by simpa using h)]

theorem inputCount_conv {b r : Bytes} {n : Nat} (h : inputCount b = .ok (n, r)) :
    (1 ≤ n ∧ n ≤ 255 ∧ n ≠ 253 ∧ b = UInt8.ofNat n :: r) ∨ (n < 2 ^ 16 ∧ b = 0xfd :: (leBytes 2 n ++ r)) := by
  unfold inputCount at h
  match b with
  | [] => cases h
  | c :: b =>
    rw [Btc.take1, Res.bind_ok] at h
    simp only at h
    split at h
    · rename_i hc
      split at h
      · cases h
      rename_i h0
      cases h
      left
      have := c.toNat_lt
      refine ⟨by omega, by omega, ?_, by rw [UInt8.ofNat_toNat]⟩
      intro e
      apply hc
      exact UInt8.toNat_inj.mp e
    · rename_i hc
      obtain ⟨⟨x, y⟩, hx, h⟩ := Res.bind_eq_ok.mp h
      cases h
      have hc : c = 0xfd := by simpa using hc
      unfold Btc.takeN at hx
      split at hx
      · cases hx
      cases hx
      right
      have hl : (b.take 2).length = 2 := by simp; omega
      have h1 := leNat_lt (b.take 2)
      have h2 := leBytes_leNat (b.take 2)
      rw [hl] at h1 h2
      refine ⟨by simpa using h1, ?_⟩
      rw [h2, List.take_append_drop, hc]

theorem zipWith_replicate {α β γ : Type} (f : α → β → γ) (x : β) : ∀ l : List α, List.zipWith f l (List.replicate l.length x) = l.map fun a => f a x
  | [] => rfl
  | a :: l => by rw [List.length_cons, List.replicate_succ, List.zipWith_cons_cons, zipWith_replicate f x l]; rfl

theorem decodeEmptyTx_eq {t : Tx} (h : t.Valid) : decodeEmptyTx t.empty = .ok (t.ins.map inp, t.tail) := by
  obtain ⟨h1, h2, h3, h4⟩ := h
  unfold decodeEmptyTx Tx.empty Tx.wire
  rw [zipWith_replicate, List.append_assoc, List.append_assoc, Btc.takeN_append _ _ (by simp), Res.bind_ok]
  simp only
  rw [if_neg (by decide), inputCount_eq (by simpa using h1) h2, Res.bind_ok]
  simp only
  rw [inputLoop_eq _ _ h4, Res.bind_ok]
  simp only
  rw [if_neg h3]

/-! ### Hashes -/

/-- The inputs `xs` are those of the transaction, whatever their other fields are. -/
def Match (x : TxInput) (i : In) : Prop := Hex.decode x.txID = .ok i.txid ∧ x.txID.length = 64 ∧ x.vout.toNat = i.vout ∧ x.sequence.toNat = i.sequence

theorem idBytes_eq {x : TxInput} {i : In} (h : Match x i) : idBytes x.txID = i.txid.reverse := by
  unfold idBytes
  rw [(BigBang.reverseHex_ok_iff x.txID i.txid.reverse).mpr (by rw [List.reverse_reverse]; exact h.1)]

/-- An input as the code writes it: the length of the script in one byte. -/
def inCode (i : In) (script : Bytes) : Bytes := i.txid.reverse ++ leBytes 4 i.vout ++ (UInt8.ofNat script.length :: script) ++ leBytes 4 i.sequence

theorem calcLoop_after {k : Nat} : ∀ {xs : List TxInput} {ins : List In} {j : Nat}, List.Forall₂ Match xs ins → k < j →
    calcLoop k j xs = (List.zipWith inCode ins (List.replicate ins.length [])).flatten
  | [], [], _, _, _ => rfl
  | x :: xs, i :: ins, j, .cons h hs, hk => by
    rw [calcLoop, idBytes_eq h, if_neg (by omega), calcLoop_after hs (by omega), h.2.2.1, h.2.2.2, List.length_cons, List.replicate_succ,
      List.zipWith_cons_cons, List.flatten_cons]
    rfl

theorem calcLoop_eq {lock : Bytes} : ∀ {xs : List TxInput} {ins : List In} {j k : Nat}, List.Forall₂ Match xs ins →
    (∃ x, xs[k]? = some x ∧ x.lockScript = Hex.encode lock) →
    calcLoop (j + k) j xs = (List.zipWith inCode ins ((List.replicate ins.length []).set k lock)).flatten
  | [], [], _, _, _, h => by obtain ⟨_, h, _⟩ := h; simp at h
  | x :: xs, i :: ins, j, 0, .cons h hs, hx => by
    obtain ⟨_, e, hx⟩ := hx
    cases e
    rw [calcLoop, idBytes_eq h, Nat.add_zero, if_pos rfl, calcLoop_after hs (by omega), h.2.2.1, h.2.2.2, List.length_cons, List.replicate_succ,
      List.set_cons_zero, List.zipWith_cons_cons, List.flatten_cons, hx, Hex.decodePrefix_encode]
    rfl
  | x :: xs, i :: ins, j, k + 1, .cons h hs, hx => by
    have hx' : ∃ x, xs[k]? = some x ∧ x.lockScript = Hex.encode lock := by simpa using hx
    have ih := calcLoop_eq (j := j + 1) hs hx'
    rw [show j + 1 + k = j + (k + 1) from by omega] at ih
    rw [calcLoop, idBytes_eq h, if_neg (by omega), ih, h.2.2.1, h.2.2.2, List.length_cons, List.replicate_succ,
      List.set_cons_succ, List.zipWith_cons_cons, List.flatten_cons]
    rfl

/-- What the code hashes for input `k`. -/
def preCode (t : Tx) (k : Nat) (lock : Bytes) : Bytes :=
  leBytes 4 4 ++ compactSize t.ins.length ++ (List.zipWith inCode t.ins ((List.replicate t.ins.length []).set k lock)).flatten ++ t.tail ++ leBytes 4 1

theorem inCode_nil (i : In) : inCode i [] = inWire i [] := rfl

theorem zip_eq {lock : Bytes} (hl : lock.length < 253) : ∀ (ins : List In) (k : Nat),
    List.zipWith inCode ins ((List.replicate ins.length []).set k lock) = List.zipWith inWire ins ((List.replicate ins.length []).set k lock)
  | [], _ => rfl
  | i :: ins, 0 => by
    rw [List.length_cons, List.replicate_succ, List.set_cons_zero, List.zipWith_cons_cons, List.zipWith_cons_cons, zipWith_replicate, zipWith_replicate]
    simp only [inCode_nil]
    rw [show inCode i lock = inWire i lock by unfold inCode inWire; rw [HyperCash.varBytes_short hl]]
  | i :: ins, k + 1 => by
    rw [List.length_cons, List.replicate_succ, List.set_cons_succ, List.zipWith_cons_cons, List.zipWith_cons_cons, zip_eq hl ins k, inCode_nil]

theorem zip_length {lock : Bytes} (hl : 253 ≤ lock.length) : ∀ (ins : List In) (k : Nat), k < ins.length →
    (List.zipWith inCode ins ((List.replicate ins.length []).set k lock)).flatten.length <
      (List.zipWith inWire ins ((List.replicate ins.length []).set k lock)).flatten.length
  | [], _, h => by simp at h
  | i :: ins, 0, _ => by
    rw [List.length_cons, List.replicate_succ, List.set_cons_zero, List.zipWith_cons_cons, List.zipWith_cons_cons, zipWith_replicate, zipWith_replicate]
    simp only [inCode_nil, List.flatten_cons, List.length_append]
    have : (inCode i lock).length < (inWire i lock).length := by
      have h3 : 3 ≤ (compactSize lock.length).length := by
        unfold compactSize
        rw [if_neg (by omega)]
        split
        · simp
        · split <;> simp
      unfold inCode inWire varBytes
      simp only [List.length_append, List.length_cons]
      omega
    omega
  | i :: ins, k + 1, h => by
    rw [List.length_cons, List.replicate_succ, List.set_cons_succ, List.zipWith_cons_cons, List.zipWith_cons_cons, inCode_nil]
    simp only [List.flatten_cons, List.length_append]
    have := zip_length hl ins k (by simpa using h)
    omega

theorem preCode_eq {lock : Bytes} (hl : lock.length < 253) (t : Tx) (k : Nat) : preCode t k lock = t.preimage k lock := by
  unfold preCode Tx.preimage Tx.wire
  rw [zip_eq hl]

theorem preCode_ne {lock : Bytes} (hl : 253 ≤ lock.length) (t : Tx) (k : Nat) (hk : k < t.ins.length) : preCode t k lock ≠ t.preimage k lock := by
  intro e
  have := congrArg List.length e
  unfold preCode Tx.preimage Tx.wire at this
  have h2 := zip_length hl t.ins k hk
  simp only [List.length_append] at this
  omega

theorem isLock_facts {text script : Bytes} (h : IsLock text script) : text ≠ [] ∧ 25 ≤ script.length := by
  cases h with
  | keyHash h hh => exact ⟨by simp [asc], by simp [p2pkhScript, hh]⟩
  | attenuated m p h hm hp hh => exact ⟨by simp [asc], by simp [p2pkhScript, hh]; omega⟩
  | hex hs =>
    refine ⟨fun e => ?_, by assumption⟩
    have := congrArg List.length e
    rw [Hex.encode_length] at this
    have : 2 * script.length = 0 := this
    omega

/-! ### Combining -/

theorem verifyHash_iff (E : Btc.Curve) (pk h sg : Bytes) : verifyHash E pk h sg = .ok true ↔
    ∃ pub hb sig p0 p, Hex.decode pk = .ok pub ∧ Hex.decode h = .ok hb ∧ Hex.decode sg = .ok sig ∧ pub.length = 33 ∧ hb.length = 32 ∧ sig.length = 64 ∧
      E.decompress pub = p0 :: p ∧ E.verify p hb sig = true := by
  unfold verifyHash
  constructor
  · intro g
    split at g
    · rename_i pub hb sig g1 g2 g3
      split at g
      · cases g
      split at g
      · cases g
      split at g
      · cases g
      rename_i c1 c2 c3
      obtain ⟨p, hp, g⟩ := Res.bind_eq_ok.mp g
      have hv := Res.ok.inj g
      match hd : E.decompress pub with
      | [] => rw [hd] at hp; cases hp
      | p0 :: p' =>
        rw [hd, slice_ok (by simp) (by simp)] at hp
        have := Res.ok.inj hp
        refine ⟨pub, hb, sig, p0, p', g1, g2, g3, by omega, by omega, by omega, hd, ?_⟩
        rw [← hv, ← this]
        simp
    · cases g
  · rintro ⟨pub, hb, sig, p0, p, g1, g2, g3, c1, c2, c3, hd, hv⟩
    rw [g1, g2, g3]
    simp only
    rw [if_neg (by omega), if_neg (by omega), if_neg (by omega), hd, slice_ok (by simp) (by simp), Res.bind_ok, ← hv]
    simp

theorem verifyAll_iff (E : Btc.Curve) : ∀ l : List TxInput, verifyAll E l = .ok true ↔ ∀ x ∈ l, verifyHash E x.pubkey x.hash x.signature = .ok true
  | [] => by simp [verifyAll]
  | x :: l => by
    unfold verifyAll
    rw [List.forall_mem_cons, ← verifyAll_iff E l]
    constructor
    · intro h
      obtain ⟨ok, h1, h⟩ := Res.bind_eq_ok.mp h
      cases ok
      · simp at h
      · exact ⟨h1, by simpa using h⟩
    · rintro ⟨h1, h2⟩
      rw [h1, Res.bind_ok]
      simpa using h2

/-- Signature and key of an input whose signature has been verified. -/
theorem submitLoop_iff {E : Btc.Curve} : ∀ {xs : List TxInput} {ins : List In} (r : Bytes), List.Forall₂ Match xs ins →
    (∀ x ∈ xs, verifyHash E x.pubkey x.hash x.signature = .ok true) → (submitLoop xs = .ok r ↔
      ∃ us : List Bytes, List.Forall₂ (fun x u => ∃ pub sig, Hex.decode x.pubkey = .ok pub ∧ Hex.decode x.signature = .ok sig ∧
        beNat (sig.take 32) ≠ 0 ∧ beNat (sig.drop 32) ≠ 0 ∧ Spec.HyperCash.IsUnlock sig pub u) xs us ∧ r = (List.zipWith inWire ins us).flatten)
  | [], [], r, _, _ => by
    simp only [submitLoop, List.forall₂_nil_left_iff]
    constructor
    · rintro ⟨⟩; exact ⟨[], rfl, rfl⟩
    · rintro ⟨_, rfl, rfl⟩; rfl
  | x :: xs, i :: ins, r, .cons h hs, hv => by
    obtain ⟨hv, hvs⟩ := List.forall_mem_cons.mp hv
    obtain ⟨pub, hb, sig, p0, p, g1, g2, g3, c1, c2, c3, _⟩ := (verifyHash_iff ..).mp hv
    unfold submitLoop
    rw [(BigBang.reverseHex_ok_iff x.txID i.txid.reverse).mpr (by rw [List.reverse_reverse]; exact h.1), Res.bind_ok,
      Hex.decodePrefix_of_ok _ _ g3, Hex.decodePrefix_of_ok _ _ g1, h.2.2.1, h.2.2.2]
    constructor
    · intro g
      obtain ⟨s, e1, g⟩ := Res.bind_eq_ok.mp g
      obtain ⟨r', e2, g⟩ := Res.bind_eq_ok.mp g
      cases g
      obtain ⟨n1, n2, u, hu, rfl⟩ := (HyperCash.encodeToScript_iff ⟨sig, pub⟩ _ c3 c1).mp e1
      obtain ⟨us, hus, rfl⟩ := (submitLoop_iff r' hs hvs).mp e2
      exact ⟨u :: us, .cons ⟨pub, sig, g1, g3, n1, n2, hu⟩ hus, by simp [inWire]⟩
    · rintro ⟨us, hus, rfl⟩
      match us, hus with
      | u :: us, .cons ⟨pub', sig', a1, a2, n1, n2, hu⟩ hus =>
        rw [g1] at a1
        rw [g3] at a2
        cases a1
        cases a2
        rw [(HyperCash.encodeToScript_iff ⟨sig, pub⟩ _ c3 c1).mpr ⟨n1, n2, u, hu, rfl⟩, Res.bind_ok,
          (submitLoop_iff _ hs hvs).mpr ⟨us, hus, rfl⟩, Res.bind_ok]
        simp [inWire]

end Verif.Mateverse
