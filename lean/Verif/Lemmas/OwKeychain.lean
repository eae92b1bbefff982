import Verif.Model.OwKeychain
import Verif.Lemmas.Hex
import Verif.Props.Base58

/-! Lemmas about `owkeychain`: Base58 texts with a prescribed beginning, padding, paths. -/

namespace Verif.Base58
open Verif Verif.Spec

theorem digits_split (v : Nat) : ∀ m : Nat, v / 58 ^ m ≠ 0 →
    ∃ low : List Nat, low.length = m ∧ Nat.digits 58 v = low ++ Nat.digits 58 (v / 58 ^ m) := by
  intro m
  induction m generalizing v with
  | zero => intro _; exact ⟨[], rfl, by simp⟩
  | succ m ih =>
    intro h
    have e : v / 58 ^ (m + 1) = v / 58 / 58 ^ m := by rw [Nat.div_div_eq_div_mul, pow_succ']
    rw [e] at h
    obtain ⟨low, h1, h2⟩ := ih (v / 58) h
    have hv : v ≠ 0 := by rintro rfl; simp at h
    refine ⟨v % 58 :: low, by simp [h1], ?_⟩
    rw [Nat.digits_of_two_le_of_pos (by omega) (by omega), h2, e]; rfl

theorem symbols_prefix {α : Type} (alph : List α) : ∀ (a b : List Nat) (p t : List α),
    symbols alph a = .ok p → symbols alph (a ++ b) = .ok t → p <+: t
  | [], b, p, t, h, _ => by simp [symbols] at h; subst h; simp
  | d :: ds, b, p, t, h, h2 => by
    unfold symbols at h
    rw [List.cons_append] at h2
    unfold symbols at h2
    split at h
    · rename_i c cs h3 h4
      split at h2
      · rename_i c' cs' h5 h6
        cases h; cases h2
        rw [h3] at h5; cases h5
        exact List.cons_prefix_cons.mpr ⟨rfl, symbols_prefix alph ds b cs cs' h4 h6⟩
      · cases h2
    · cases h

/-- The first symbols of a Base58 text are determined by the leading base-58 digits of the number. -/
theorem encode_prefix {α : Type} (alph : List α) (hlen : alph.length = 58) (b : Bytes) (t p : List α)
    (hz : leadingZeros b = 0) (m w : Nat) (hw : beNat b / 58 ^ m = w) (hw0 : w ≠ 0)
    (hp : symbols alph (Nat.digits 58 w).reverse = .ok p) (h : encode alph b = .ok t) : p <+: t := by
  rw [encode_eq alph hlen, base58Digits, hz] at h
  subst hw
  obtain ⟨low, _, h2⟩ := digits_split (beNat b) m hw0
  rw [h2] at h
  simp only [List.replicate_zero, List.nil_append, List.reverse_append] at h
  exact symbols_prefix alph _ _ _ _ hp h

/-- Conversely the number decoded from a text starting with `p`. -/
theorem decode_value {α : Type} [DecidableEq α] (alph : List α) (hal : IsAlphabet alph) (t : List α) (b : Bytes)
    (h : decode alph t = .ok b) : (∀ c ∈ t, c ∈ alph) ∧ beNat b = horner 58 0 (t.map (alph.idxOf ·)) ∧
      b.map UInt8.toNat = conv 58 256 (t.map (alph.idxOf ·)) := by
  by_cases ht : ∀ c ∈ t, c ∈ alph
  · rw [decode_eq alph hal t ht] at h
    cases h
    have hm := map_ofNat_toNat _ (conv_lt (a := 58) (b := 256) (by omega) (t.map (alph.idxOf ·)))
    refine ⟨ht, ?_, hm⟩
    rw [← horner_toNat, hm, conv, horner_replicate, horner_digits]
  · rw [decode_err alph hal t ht] at h; cases h

theorem decode_prefix_bounds {α : Type} [DecidableEq α] (alph : List α) (hal : IsAlphabet alph) (p r : List α)
    (b : Bytes) (h : decode alph (p ++ r) = .ok b) :
    horner 58 0 (p.map (alph.idxOf ·)) * 58 ^ r.length ≤ beNat b ∧
    beNat b < (horner 58 0 (p.map (alph.idxOf ·)) + 1) * 58 ^ r.length := by
  obtain ⟨h1, h2, _⟩ := decode_value alph hal _ _ h
  rw [h2, List.map_append, horner_append]
  generalize horner 58 0 (p.map (alph.idxOf ·)) = w
  have hlt : horner 58 0 (r.map (alph.idxOf ·)) < 58 ^ r.length := by
    have := horner_lt (m := 58) (r.map (alph.idxOf ·)) 0 0 (by
      intro d hd
      obtain ⟨c, hc, rfl⟩ := List.mem_map.mp hd
      rw [← hal.length]; exact List.idxOf_lt_length_of_mem (h1 c (by simp [hc]))) (by simp)
    simpa using this
  rw [horner_eq] at hlt ⊢
  simp only [Nat.zero_mul, Nat.zero_add, List.length_map] at hlt ⊢
  constructor
  · omega
  · rw [Nat.add_mul]; omega

end Verif.Base58

namespace Verif.OwKeychain
open Verif Verif.Spec

theorem alphabet_ok : IsAlphabet alphabet := ⟨by decide +kernel, by decide +kernel⟩

theorem cmpPrefix_ok (fix d : Bytes) : cmpPrefix fix (fix ++ d) = .ok () := by
  induction fix with
  | nil => rfl
  | cons x xs ih => simpa [cmpPrefix] using ih

theorem cmpPrefix_ok_iff : ∀ (fix d : Bytes), cmpPrefix fix d = .ok () ↔ fix <+: d
  | [], d => by simp [cmpPrefix]
  | x :: xs, [] => by simp [cmpPrefix]
  | x :: xs, y :: ys => by
    by_cases h : x = y
    · subst h; simp [cmpPrefix, cmpPrefix_ok_iff xs ys, List.cons_prefix_cons]
    · simp [cmpPrefix, h, List.cons_prefix_cons]

theorem cmpPrefix_panic_iff : ∀ (fix d : Bytes), cmpPrefix fix d = .panic ↔ d.length < fix.length ∧ d <+: fix
  | [], d => by simp [cmpPrefix]
  | x :: xs, [] => by simp [cmpPrefix]
  | x :: xs, y :: ys => by
    by_cases h : x = y
    · subst h; simp [cmpPrefix, cmpPrefix_panic_iff xs ys, List.cons_prefix_cons]
    · simp [cmpPrefix, h, List.cons_prefix_cons, Ne.symm h]

theorem b58Check_roundtrip (H : Hashes) (data fix : Bytes) :
    ∃ t, b58CheckEncode H data fix = .ok t ∧ b58CheckDecode H t fix = .ok data := by
  unfold b58CheckEncode b58CheckDecode
  have hc : ((H.hash .doubleSha256 (fix ++ data)).take 4).length = 4 := by
    rw [List.length_take, H.size]; rfl
  obtain ⟨t, h1, _, h2⟩ := C01_base58_roundtrip alphabet alphabet_ok
    (fix ++ data ++ (H.hash .doubleSha256 (fix ++ data)).take 4)
  refine ⟨t, h1, ?_⟩
  rw [h2]
  generalize hcs : (H.hash .doubleSha256 (fix ++ data)).take 4 = c at hc
  have hlen : (fix ++ data ++ c).length - 4 = (fix ++ data).length := by simp [hc]; omega
  simp only [Res.bind_ok]
  rw [List.append_assoc, cmpPrefix_ok, ← List.append_assoc]
  simp only [Res.bind_ok]
  rw [if_neg (by simp [hc]; omega), hlen, slice_prefix _ _ rfl]
  simp only [Res.bind_ok]
  rw [hcs, List.drop_left, if_neg (by simp)]
  rw [List.append_assoc, slice_mid fix data c rfl (by simp)]

/-- The text of a payload with prefix `fix` starts with the symbols `p` when the two number intervals nest. -/
theorem b58Check_prefix (H : Hashes) (data fix t p : Bytes) (L m w : Nat) (hd : data.length + 4 = L)
    (hz : leadingZeros fix = 0) (hf : fix ≠ [])
    (h1 : w * 58 ^ m ≤ beNat fix * 256 ^ L) (h2 : (beNat fix + 1) * 256 ^ L ≤ (w + 1) * 58 ^ m) (hw : w ≠ 0)
    (hp : Base58.symbols alphabet (Nat.digits 58 w).reverse = .ok p)
    (h : b58CheckEncode H data fix = .ok t) : p <+: t := by
  unfold b58CheckEncode at h
  have hc : ((H.hash .doubleSha256 (fix ++ data)).take 4).length = 4 := by
    rw [List.length_take, H.size]; rfl
  refine Base58.encode_prefix alphabet alphabet_ok.length _ t p ?_ m w ?_ hw hp h
  · cases fix with
    | nil => exact absurd rfl hf
    | cons x xs =>
      unfold leadingZeros at hz ⊢
      have : (x == 0) = false := by
        by_contra hx
        simp at hx; subst hx; simp at hz
      simp [this]
  · have hlt := beNat_lt (data ++ (H.hash .doubleSha256 (fix ++ data)).take 4)
    rw [List.append_assoc, beNat_append]
    rw [List.length_append, hc, hd] at hlt ⊢
    rw [Nat.add_mul, Nat.one_mul] at h2
    exact Nat.div_eq_of_lt_le (by omega) (by omega)

/-- Bytes starting with `fix` as a number. -/
theorem prefix_bounds {fix d : Bytes} (h : fix <+: d) :
    beNat fix * 256 ^ (d.length - fix.length) ≤ beNat d ∧
    beNat d < (beNat fix + 1) * 256 ^ (d.length - fix.length) := by
  obtain ⟨r, rfl⟩ := h
  have := beNat_lt r
  rw [beNat_append]
  simp only [List.length_append, Nat.add_sub_cancel_left, Nat.add_mul, Nat.one_mul]
  omega

/-- No text beginning with the five symbols of value `w` decodes to fewer than 87 bytes that agree with the five
bytes of value `F` as far as they go. -/
def Gap (w F : Nat) : Prop :=
  (∀ n < 82, ∀ m < 118, ¬ (w * 58 ^ m < (F + 1) * 256 ^ n ∧ F * 256 ^ n < (w + 1) * 58 ^ m)) ∧
  (∀ n < 5, ∀ m < 118, ¬ (w * 58 ^ m ≤ F / 256 ^ (5 - n) ∧ F / 256 ^ (5 - n) < (w + 1) * 58 ^ m))

instance (w F : Nat) : Decidable (Gap w F) := by unfold Gap; infer_instance

set_option maxRecDepth 20000 in
theorem gap_prv : Gap 531255867 (beNat owprvPrefix) := by decide +kernel
set_option maxRecDepth 20000 in
theorem gap_pub : Gap 531256022 (beNat owpubPrefix) := by decide +kernel
set_option maxRecDepth 20000 in
theorem gap_bls : Gap 531256022 (beNat owpubPrefixBLS) := by decide +kernel

set_option exponentiation.threshold 2000 in
theorem pow_118 : 256 ^ 86 < 58 ^ 118 := by norm_num

theorem long_of_prefix {p r fix d : Bytes} (w : Nat) (hw : Base58.horner 58 0 (p.map (alphabet.idxOf ·)) = w)
    (hw0 : 0 < w) (hf : fix.length = 5) (hg : Gap w (beNat fix)) (h : Base58.decode alphabet (p ++ r) = .ok d) :
    (fix <+: d → 87 ≤ d.length) ∧ ¬ (d.length < 5 ∧ d <+: fix) := by
  obtain ⟨b1, b2⟩ := Base58.decode_prefix_bounds alphabet alphabet_ok p r d h
  rw [hw] at b1 b2
  have hsmall : d.length < 87 → r.length < 118 := by
    intro hd
    by_contra hr
    have h1 : beNat d < 256 ^ 86 := lt_of_lt_of_le (beNat_lt d) (Nat.pow_le_pow_right (by omega) (by omega))
    have h2 : 58 ^ 118 ≤ 58 ^ r.length := Nat.pow_le_pow_right (by omega) (by omega)
    have h3 : 58 ^ r.length ≤ w * 58 ^ r.length := Nat.le_mul_of_pos_left _ hw0
    have := pow_118
    omega
  constructor
  · intro hp
    by_contra hd
    have hm := hsmall (by omega)
    obtain ⟨c1, c2⟩ := prefix_bounds hp
    have hl := hp.length_le
    rw [hf] at c1 c2 hl
    exact hg.1 (d.length - 5) (by omega) r.length hm ⟨by omega, by omega⟩
  · rintro ⟨hd, hp⟩
    have hm := hsmall (by omega)
    obtain ⟨q, rfl⟩ := hp
    have hv : beNat (d ++ q) / 256 ^ (5 - d.length) = beNat d := by
      rw [List.length_append] at hf
      have hq : 5 - d.length = q.length := by omega
      rw [hq, beNat_append]
      have := beNat_lt q
      rw [Nat.mul_comm, Nat.mul_add_div (by positivity), Nat.div_eq_of_lt this, Nat.add_zero]
    have := hg.2 d.length hd r.length hm
    rw [hv] at this
    exact this ⟨b1, b2⟩

/-- Decoding a text that does not contain the version prefix first. -/
theorem b58CheckDecode_err (H : Hashes) (t b fix : Bytes) (h : Base58.decode alphabet t = .ok b)
    (h2 : cmpPrefix fix b = .err) : b58CheckDecode H t fix = .err := by
  simp [b58CheckDecode, h, h2]

theorem b58CheckDecode_long (H : Hashes) {p r fix : Bytes} (w : Nat)
    (hw : Base58.horner 58 0 (p.map (alphabet.idxOf ·)) = w)
    (hw0 : 0 < w) (hf : fix.length = 5) (hg : Gap w (beNat fix)) :
    b58CheckDecode H (p ++ r) fix = .err ∨ ∃ d, b58CheckDecode H (p ++ r) fix = .ok d ∧ 78 ≤ d.length := by
  cases hdec : Base58.decode alphabet (p ++ r) with
  | err => left; simp [b58CheckDecode, hdec]
  | panic =>
    by_cases ht : ∀ c ∈ p ++ r, c ∈ alphabet
    · rw [Base58.decode_eq alphabet alphabet_ok _ ht] at hdec; cases hdec
    · rw [Base58.decode_err alphabet alphabet_ok _ ht] at hdec; cases hdec
  | ok d =>
    obtain ⟨l1, l2⟩ := long_of_prefix w hw hw0 hf hg hdec
    cases hc : cmpPrefix fix d with
    | err => left; exact b58CheckDecode_err H _ d _ hdec hc
    | panic => rw [cmpPrefix_panic_iff, hf] at hc; exact absurd hc l2
    | ok u =>
      have hp := (cmpPrefix_ok_iff fix d).mp hc
      have hl := l1 hp
      simp only [b58CheckDecode, hdec, hc, Res.bind_ok]
      rw [if_neg (by omega), slice_ok (by omega) (by omega)]
      simp only [Res.bind_ok]
      split
      · left; simp
      · right
        rw [slice_ok (by omega) (by omega)]
        exact ⟨_, rfl, by simp; omega⟩

theorem owFields_ne_panic (ids : CurveIds) (d : Bytes) (b : Bool) (h : 46 ≤ d.length) : owFields ids d b ≠ .panic := by
  unfold owFields
  rw [slice_ok (by omega) (by omega), index_ok (by omega), slice_ok (by omega) (by omega),
    slice_ok (by omega) (by omega), slice_ok (by omega) (by omega), index_ok (by omega),
    slice_ok (by omega) (by omega), slice_ok (by omega) (by omega)]
  simp only [Res.bind_ok]
  split
  · split <;> simp
  · simp

theorem owFields_eq (ids : CurveIds) (k : ExtendedKey) (h1 : k.parentFP.length = 4) (h2 : k.chainCode.length = 32) :
    owFields ids (beBytes 4 k.curveType.toNat ++ [k.depth] ++ k.parentFP ++ beBytes 4 k.serializes.toNat ++
      k.chainCode ++ (if padded ids k.curveType k.isPrivate then [0] else []) ++ k.key) k.isPrivate = .ok k := by
  obtain ⟨depth, fp, ser, cc, key, prv, ct⟩ := k
  simp only at h1 h2 ⊢
  have hct : beNat (beBytes 4 ct.toNat) = ct.toNat := beNat_beBytes_of_lt (by have := ct.toNat_lt; omega)
  have hse : beNat (beBytes 4 ser.toNat) = ser.toNat := beNat_beBytes_of_lt (by have := ser.toNat_lt; omega)
  have lct : (beBytes 4 ct.toNat).length = 4 := by simp
  have lse : (beBytes 4 ser.toNat).length = 4 := by simp
  generalize beBytes 4 ct.toNat = a at *
  generalize beBytes 4 ser.toNat = s at *
  generalize hpad : (if padded ids ct prv then [(0 : UInt8)] else []) = pad
  unfold owFields
  have e1 : slice (a ++ [depth] ++ fp ++ s ++ cc ++ pad ++ key) 0 4 = .ok a := by
    simp only [List.append_assoc]; exact slice_prefix _ _ lct
  have e2 : index (a ++ [depth] ++ fp ++ s ++ cc ++ pad ++ key) 4 = .ok depth := by
    simp only [List.append_assoc, List.singleton_append]
    rw [← lct]; exact index_append_right _ _ _
  have e3 : slice (a ++ [depth] ++ fp ++ s ++ cc ++ pad ++ key) 5 9 = .ok fp := by
    rw [show a ++ [depth] ++ fp ++ s ++ cc ++ pad ++ key = (a ++ [depth]) ++ (fp ++ (s ++ cc ++ pad ++ key)) by simp]
    exact slice_mid (i := 5) (j := 9) _ _ _ (by simp [lct]) (by simp [h1])
  have e4 : slice (a ++ [depth] ++ fp ++ s ++ cc ++ pad ++ key) 9 13 = .ok s := by
    rw [show a ++ [depth] ++ fp ++ s ++ cc ++ pad ++ key = (a ++ [depth] ++ fp) ++ (s ++ (cc ++ pad ++ key)) by simp]
    exact slice_mid (i := 9) (j := 13) _ _ _ (by simp [lct, h1]) (by simp [lse])
  have e5 : slice (a ++ [depth] ++ fp ++ s ++ cc ++ pad ++ key) 13 45 = .ok cc := by
    rw [show a ++ [depth] ++ fp ++ s ++ cc ++ pad ++ key = (a ++ [depth] ++ fp ++ s) ++ (cc ++ (pad ++ key)) by simp]
    exact slice_mid (i := 13) (j := 45) _ _ _ (by simp [lct, h1, lse]) (by simp [h2])
  have l45 : (a ++ [depth] ++ fp ++ s ++ cc).length = 45 := by simp [lct, h1, lse, h2]
  rw [e1, e2, e3, e4, e5]
  simp only [Res.bind_ok, hct, hse, UInt32.ofNat_toNat]
  by_cases hp : padded ids ct prv = true
  · rw [if_pos hp] at hpad ⊢
    subst hpad
    have e6 : index (a ++ [depth] ++ fp ++ s ++ cc ++ [0] ++ key) 45 = .ok 0 := by
      rw [List.append_assoc _ [0] key, ← l45]; exact index_append_right _ _ _
    have e7 : slice (a ++ [depth] ++ fp ++ s ++ cc ++ [0] ++ key) 46
        (a ++ [depth] ++ fp ++ s ++ cc ++ [0] ++ key).length = .ok key :=
      slice_suffix _ _ (by rw [List.length_append, l45]; rfl) (by simp only [List.length_append] at l45 ⊢; simp at l45 ⊢; omega)
    rw [e6, e7]; simp
  · rw [if_neg hp] at hpad ⊢
    subst hpad
    simp only [List.append_nil]
    have e7 : slice (a ++ [depth] ++ fp ++ s ++ cc ++ key) 45
        (a ++ [depth] ++ fp ++ s ++ cc ++ key).length = .ok key :=
      slice_suffix _ _ l45 (by simp only [List.length_append] at l45 ⊢; omega)
    rw [e7]; simp

/-! ### Derivation -/

/-- The HMAC output used for private child `i`. -/
def childI (E : Ext) (k : ExtendedKey) (i : UInt32) : Bytes :=
  if i ≥ 0x80000000 then getI E k.key k.chainCode i (typeChoose E.ids k.curveType)
  else getI E (E.mulBaseG (typeChoose E.ids k.curveType) k.key) k.chainCode i (typeChoose E.ids k.curveType)

theorem genPrivateChild_ok (E : Ext) (k : ExtendedKey) (i : UInt32) (c : ExtendedKey) :
    genPrivateChild E k i = .ok c ↔ k.depth ≠ 255 ∧ k.isPrivate = true ∧ ∃ ck,
      priChild E ((childI E k i).take 32) k.key (typeChoose E.ids k.curveType) = some ck ∧
      c = { depth := k.depth + 1, parentFP := getFP E k.key true (typeChoose E.ids k.curveType), serializes := i,
            chainCode := (childI E k i).drop 32, key := ck, isPrivate := true, curveType := k.curveType } := by
  unfold genPrivateChild
  simp only
  by_cases h1 : k.depth = 255
  · simp [h1]
  · by_cases h2 : k.isPrivate = true
    · rw [if_neg h1, if_neg (by simp [h2])]
      change ((match priChild E ((childI E k i).take 32) k.key (typeChoose E.ids k.curveType) with
        | none => Res.err
        | some childKey => Res.ok
          { depth := k.depth + 1, parentFP := getFP E k.key k.isPrivate (typeChoose E.ids k.curveType), serializes := i,
            chainCode := (childI E k i).drop 32, key := childKey, isPrivate := true, curveType := k.curveType }) :
          Res ExtendedKey) = _ ↔ _
      cases hp : priChild E ((childI E k i).take 32) k.key (typeChoose E.ids k.curveType) with
      | none => simp
      | some ck => simp [h1, h2, eq_comm]
    · rw [if_neg h1, if_pos (by simp [h2])]; simp [h2]

theorem genPrivateChild_ne_panic (E : Ext) (k : ExtendedKey) (i : UInt32) : genPrivateChild E k i ≠ .panic := by
  unfold genPrivateChild
  simp only
  split
  · simp
  · split
    · simp
    · generalize (if i ≥ 0x80000000 then getI E k.key k.chainCode i (typeChoose E.ids k.curveType)
        else getI E (E.mulBaseG (typeChoose E.ids k.curveType) k.key) k.chainCode i (typeChoose E.ids k.curveType)) = x
      split <;> simp

theorem clampBls_length (b : Bytes) : (clampBls b).length = b.length := by cases b <;> simp [clampBls]
theorem zero3_length (b : Bytes) : (zero3 b).length = b.length := by simp [zero3]; omega

theorem getI_length (E : Ext) (d cc : Bytes) (i c : UInt32) : (getI E d cc i c).length = 64 := by
  unfold getI
  simp only
  split <;> split <;> simp [clampBls_length, zero3_length, E.hmac512_size]

theorem childI_length (E : Ext) (k : ExtendedKey) (i : UInt32) : (childI E k i).length = 64 := by
  unfold childI; split <;> exact getI_length ..

theorem beNat_bigBytes (n : Nat) : beNat (bigBytes n) = n := by
  have : ∀ l : List Nat, (∀ d ∈ l, d < 256) → leNat (l.map UInt8.ofNat) = Nat.ofDigits 256 l := by
    intro l
    induction l with
    | nil => simp
    | cons x xs ih =>
      intro h
      have hx := h x (by simp)
      simp only [List.map_cons, leNat, Nat.ofDigits_cons, ih (fun d hd => h d (by simp [hd])), UInt8.toNat_ofNat']
      simp; omega
  rw [beNat, bigBytes, List.reverse_reverse, this _ (fun d hd => Nat.digits_lt_base (by omega) hd),
    Nat.ofDigits_digits]

theorem bigBytes_length_le (n k : Nat) : (bigBytes n).length ≤ k ↔ n < 256 ^ k := by
  simp only [bigBytes, List.length_reverse, List.length_map]
  exact Nat.digits_length_le_iff (by omega) n

theorem beNat_padLoop : ∀ (f i : Nat) (s : Bytes), beNat (padLoop f i s) = beNat s
  | 0, _, _ => rfl
  | f + 1, i, s => by
    unfold padLoop
    split
    · rw [beNat_padLoop f, beNat_cons]; simp
    · rfl

/-- How many bytes the padding loop really produces. -/
theorem padLoop_length (m : Nat) : ∀ (f i : Nat) (s : Bytes), 32 - s.length = m + i → m ≤ f →
    (padLoop f i s).length = s.length + (m + 1) / 2 := by
  induction m using Nat.strong_induction_on with
  | _ m ih =>
    intro f i s h hf
    cases f with
    | zero => simp [padLoop]; omega
    | succ f =>
      unfold padLoop
      split
      · rename_i hlt
        by_cases h1 : m = 1
        · subst h1
          have : padLoop f (i + 1) (0 :: s) = 0 :: s := by
            cases f with
            | zero => rfl
            | succ f => unfold padLoop; rw [if_neg]; simp; omega
          rw [this]; simp
        · rw [ih (m - 2) (by omega) f (i + 1) (0 :: s) (by simp; omega) (by omega)]
          simp; omega
      · have : m = 0 := by omega
        subst this; simp

theorem pad_length (s : Bytes) (h : s.length ≤ 32) : (padLoop 32 0 s).length = s.length + (33 - s.length) / 2 := by
  rw [padLoop_length (32 - s.length) 32 0 s (by omega) (by omega)]; omega

theorem leNat_mod8 (b : Bytes) (x : UInt8) : leNat (x :: b) % 8 = x.toNat % 8 := by
  simp only [leNat]; omega

theorem leNat_take_lt (b : Bytes) (n : Nat) : leNat (b.take n) < 256 ^ n :=
  lt_of_lt_of_le (leNat_lt _) (Nat.pow_le_pow_right (by omega) (by simp))

theorem typeChoose_ed (ids : CurveIds) (c : UInt32) (h : edLike ids c = true) : typeChoose ids c = ids.ed25519 := by
  rw [show edLike ids c = (c == ids.ed25519 || c == ids.x25519 || c == ids.curve25519Sha256) from rfl] at h
  unfold typeChoose
  split
  · rfl
  · rename_i hn
    simp at h hn
    rcases h with (h | h) | h
    · exact h
    · exact absurd h hn.1
    · exact absurd h hn.2

theorem typeChoose_not_ed (ids : CurveIds) (c : UInt32) (h : edLike ids c = false) : typeChoose ids c = c := by
  simp [edLike] at h
  simp [typeChoose, h]

theorem edLike_ed (ids : CurveIds) : edLike ids ids.ed25519 = true := by simp [edLike]

theorem typeChoose_idem (ids : CurveIds) (c : UInt32) : typeChoose ids (typeChoose ids c) = typeChoose ids c := by
  by_cases h : edLike ids c = true
  · rw [typeChoose_ed ids c h, typeChoose_ed ids _ (edLike_ed ids)]
  · rw [typeChoose_not_ed ids c (by simpa using h), typeChoose_not_ed ids c (by simpa using h)]

theorem priChild_ed (E : Ext) (il key : Bytes) (c : UInt32) (h : edLike E.ids c = true) (h1 : 2 ^ 254 ≤ leNat key)
    (h2 : leNat key + 2 ^ 227 ≤ 2 ^ 256) (ck : Bytes) (hp : priChild E il key (typeChoose E.ids c) = some ck) :
    ck.length = 32 ∧ leNat ck = leNat (il.take 28) * 8 + leNat key ∧
      (leNat (il.take 28) * 8 + leNat key) % curveOrder E.ids E.ids.ed25519 ≠ 0 := by
  unfold priChild at hp
  rw [typeChoose_idem, typeChoose_ed E.ids c h] at hp
  simp only [edLike_ed, if_true] at hp
  have hlt := leNat_take_lt il 28
  have hv1 : 2 ^ 254 ≤ leNat (il.take 28) * 8 + leNat key := by omega
  have hv2 : leNat (il.take 28) * 8 + leNat key < 2 ^ 256 := by omega
  split at hp
  · cases hp
  · rename_i hm
    cases hp
    have hl : (bigBytes (leNat (il.take 28) * 8 + leNat key)).length = 32 := by
      have a := (bigBytes_length_le (leNat (il.take 28) * 8 + leNat key) 32).mpr (by omega)
      have b : ¬ (bigBytes (leNat (il.take 28) * 8 + leNat key)).length ≤ 31 := by
        rw [bigBytes_length_le]; omega
      omega
    refine ⟨?_, ?_, hm⟩
    · rw [List.length_reverse, pad_length _ (by omega), hl]
    · rw [← List.reverse_reverse (padLoop 32 0 _)]
      change beNat _ = _
      rw [List.reverse_reverse, beNat_padLoop, beNat_bigBytes]

/-- Ranges of ed25519 scalars by depth. -/
def EdRange (depth : Nat) (key : Bytes) : Prop :=
  key.length = 32 ∧ leNat key % 8 = 0 ∧ 2 ^ 254 ≤ leNat key ∧ leNat key < 2 ^ 255 + depth * 2 ^ 227

theorem modify_length {α : Type} (l : List α) (i : Nat) (f : α → α) : (l.modify i f).length = l.length := by simp

theorem ed_root (i : Bytes) (hi : i.length = 64) :
    EdRange 0 (((i.modify 0 (fun b => b &&& 248)).modify 31 (fun b => (b &&& 63) ||| 64)).take 32) := by
  have hb0 : ∀ b : UInt8, (b &&& 248).toNat % 8 = 0 := by
    intro b; revert b; apply Hex.u8_forall; decide +kernel
  have hb31 : ∀ b : UInt8, 64 ≤ ((b &&& 63) ||| 64).toNat ∧ ((b &&& 63) ||| 64).toNat < 128 := by
    intro b; revert b; apply Hex.u8_forall; decide +kernel
  obtain ⟨x, xs, rfl⟩ : ∃ x xs, i = x :: xs := by cases i with | nil => simp at hi | cons x xs => exact ⟨x, xs, rfl⟩
  simp only [List.length_cons] at hi
  obtain ⟨a, y, r, rfl, ha⟩ : ∃ a y r, xs = a ++ y :: r ∧ a.length = 30 :=
    ⟨xs.take 30, xs[30], xs.drop 31, by simp, by simp; omega⟩
  have e : (((x :: (a ++ y :: r)).modify 0 (fun b => b &&& 248)).modify 31 (fun b => (b &&& 63) ||| 64)).take 32
      = (x &&& 248) :: (a ++ [(y &&& 63) ||| 64]) := by
    simp only [List.modify_zero_cons, List.modify_succ_cons]
    rw [List.modify_eq_take_cons_drop (by simp [ha])]
    simp [List.take_append, List.drop_append, ha, List.take_of_length_le (l := a) (i := 31) (by omega),
      List.drop_of_length_le (l := a) (i := 31) (by omega)]
  rw [e]
  have h0 := hb0 x
  have h31 := hb31 y
  have hx := (x &&& 248).toNat_lt
  have hlt := leNat_lt a
  unfold EdRange
  rw [leNat_mod8]
  simp only [leNat, leNat_append, ha] at hlt ⊢
  refine ⟨by simp [ha], h0, ?_, ?_⟩ <;> omega

theorem walk_invariant (step : ExtendedKey → UInt32 → Res ExtendedKey) (P : ExtendedKey → Prop)
    (hs : ∀ k i c, P k → step k i = .ok c → P c) :
    ∀ (es : List Bytes) (k c : ExtendedKey), P k → walk step es k = .ok c → P c
  | [], k, c, hk, h => by simp [walk] at h; exact h ▸ hk
  | e :: es, k, c, hk, h => by
    unfold walk at h
    split at h
    · cases h
    · split at h
      · rename_i k' hk'
        exact walk_invariant step P hs es k' c (hs _ _ _ hk hk') h
      · cases h
      · cases h

theorem derivePrivate_invariant (E : Ext) (seed path : Bytes) (c : UInt32) (P : ExtendedKey → Prop)
    (hr : ∀ k, initRootKey E seed c = .ok k → P k)
    (hs : ∀ k i k', P k → genPrivateChild E k i = .ok k' → P k') (k : ExtendedKey)
    (h : derivePrivate E seed path c = .ok k) : P k := by
  unfold derivePrivate at h
  simp only at h
  split at h
  · exact hr k h
  · split at h
    · cases h
    · split at h
      · rename_i root hroot
        exact walk_invariant _ P hs _ root k (hr _ hroot) h
      · cases h
      · cases h

theorem getFP_length (E : Ext) (key : Bytes) (b : Bool) (c : UInt32) : (getFP E key b c).length = 4 := by
  unfold getFP; split <;> simp [E.H.size, Alg.size]

/-- Field sizes of private keys along every path. -/
structure PrivShape (c : UInt32) (k : ExtendedKey) : Prop where
  fp : k.parentFP.length = 4
  cc : k.chainCode.length = 32
  priv : k.isPrivate = true
  curve : k.curveType = c

theorem root_shape (E : Ext) (seed : Bytes) (c : UInt32) (k : ExtendedKey) (h : initRootKey E seed c = .ok k) :
    PrivShape c k ∧ k.depth = 0 := by
  unfold initRootKey at h
  split at h
  · cases h
  · cases h
    refine ⟨⟨rfl, ?_, rfl, rfl⟩, rfl⟩
    simp only [List.length_drop]
    split <;> split <;> split <;> simp [clampBls_length, E.H.size, Alg.size]

theorem child_shape (E : Ext) (c : UInt32) (k : ExtendedKey) (i : UInt32) (k' : ExtendedKey) (hk : PrivShape c k)
    (h : genPrivateChild E k i = .ok k') : PrivShape c k' := by
  obtain ⟨_, _, ck, _, rfl⟩ := (genPrivateChild_ok E k i k').mp h
  exact ⟨getFP_length E k.key true (typeChoose E.ids k.curveType), by simp [childI_length], rfl, hk.curve⟩

end Verif.OwKeychain
