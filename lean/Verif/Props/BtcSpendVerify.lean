import Verif.Props.BtcSpend

/-! Property C63 for all kinds of inputs: what is signed and inserted verifies (package btcTransaction). -/

namespace Verif
open Verif.Spec Verif.Btc

namespace Btc

variable {sty : UInt8}

/-- The signatures that the readers of unlocking scripts return unchanged (`C24_roundtrip_partial`). -/
def InRange (sig : Bytes) : Prop := beNat (sig.take 32) < 2 ^ 247 ∨ 2 ^ 231 ≤ beNat (sig.drop 32)

/-! ### Reading multi-signature scripts -/

theorem der_first_zero {c b : Bytes} (hb : b.length = 32) (hd : IsDerInt c (beNat b)) (hc : c.length = 33) : ∀ x ∈ c.head?, x = 0 := by
  intro x hx
  cases c with
  | nil => simp at hx
  | cons y t =>
    simp at hx; subst hx
    by_contra h0
    have hv := hd.value
    rw [beNat_cons] at hv
    have h1 := beNat_lt b
    have hy : 1 ≤ y.toNat := by
      by_contra hcc
      exact h0 (UInt8.toNat_inj.mp (by simp; omega))
    have h2 : 1 * 256 ^ t.length ≤ y.toNat * 256 ^ t.length := Nat.mul_le_mul_right _ hy
    have ht : t.length = 32 := by simpa using hc
    rw [ht] at h2 hv
    rw [hb] at h1
    omega

theorem der_short {sig R S : Bytes} (dR : IsDerInt R (beNat (sig.take 32))) (dS : IsDerInt S (beNat (sig.drop 32))) (h : InRange sig) :
    R.length < 32 ∨ 30 ≤ S.length := by
  rcases h with h | h
  · left
    by_contra hc
    have := Btc.IsDerInt.ge dR (by omega)
    have : 2 ^ 247 ≤ 2 ^ (8 * (R.length - 1) - 1) := Nat.pow_le_pow_right (by omega) (by omega)
    omega
  · right
    by_contra hc
    have := Btc.IsDerInt.lt dS
    have : 2 ^ (8 * S.length - 1) ≤ 2 ^ 231 := Nat.pow_le_pow_right (by omega) (by omega)
    omega

/-- Reading a signature in front of other bytes, which stay what they are. -/
theorem decodeSig_push {sig der : Bytes} (h : IsSig sty sig der) (hr : InRange sig) (rest : Bytes) :
    ∃ pre, decodeSig (push der ++ rest) (der.length + 1) = .ok (sig, sty, pre ++ rest) ∧ pre.length = der.length + 1 := by
  obtain ⟨R, S, lR, lS, _, _, dR, dS, rfl⟩ := isSig_der h
  have hl := h.1
  have hlen : (derSig R S ++ [sty]).length = R.length + S.length + 7 := by simp [derSig]; omega
  rw [push_der, hlen]
  have rs := readSig_ok (UInt8.ofNat (R.length + S.length + 7)) (UInt8.ofNat (R.length + S.length + 4)) R S
    (sty :: rest) (R.length + S.length + 7 + 1) lR lS (der_first_zero (by simp; omega) dR) (der_first_zero (by simp; omega) dS) (by omega)
  obtain ⟨pre, hpre, hprel⟩ := memAfter_tail [UInt8.ofNat (R.length + S.length + 7), 0x30,
    UInt8.ofNat (R.length + S.length + 4), 0x02, UInt8.ofNat R.length] R S (sty :: rest) lS (der_short dR dS hr)
  have hprel' : pre.length = 7 + R.length + S.length := by rw [hprel]; simp; omega
  have bR : intBody R = sig.take 32 := intBody_der _ _ (by simp; omega) dR lR
  have bS : intBody S = sig.drop 32 := intBody_der _ _ (by simp; omega) dS lS
  refine ⟨pre ++ [sty], ?_, by simp; omega⟩
  unfold decodeSig
  rw [if_neg (by omega)]
  have i0 : index ([UInt8.ofNat (R.length + S.length + 7), 0x30, UInt8.ofNat (R.length + S.length + 4), 0x02, UInt8.ofNat R.length] ++ R ++
      (0x02 :: UInt8.ofNat S.length :: (S ++ sty :: rest))) 0 = .ok (UInt8.ofNat (R.length + S.length + 7)) := rfl
  rw [i0, Res.bind_ok, if_neg (by rw [u8_len (by omega)]; omega), rs, Res.bind_ok]
  simp only
  rw [hpre, at', if_neg (by omega), index_at pre sty rest (by omega), Res.bind_ok, if_neg]
  · simp [bR, bS]
  · rintro (hc | hc)
    · apply hc
      apply UInt8.toNat_inj.mp
      simp [UInt8.toNat_add]
    · apply hc
      apply UInt8.toNat_inj.mp
      simp [UInt8.toNat_add]

theorem readMultiSigs_ok (t0 t1 : UInt8) (T : Bytes) (h1 : t1 ≠ 0x30) : ∀ (sigs ders : List Bytes) (f : Nat) (a : Bytes), ders.length < f →
    List.Forall₂ (IsSig sty) sigs ders → (∀ s ∈ sigs, InRange s) →
    ∃ a', a'.length = a.length + ((ders.map push).flatten).length ∧
      readMultiSigs f (a ++ (ders.map push).flatten ++ t0 :: t1 :: T) a.length =
        .ok (sigs.map (fun s => (s, sty)), a' ++ t0 :: t1 :: T, a'.length)
  | [], [], 0, a, hf, _, _ => by simp at hf
  | [], [], f + 1, a, _, _, _ => by
    refine ⟨a, by simp, ?_⟩
    rw [readMultiSigs, if_neg (by simp)]
    have i0 : index (a ++ (List.map push []).flatten ++ t0 :: t1 :: T) a.length = .ok t0 := by simp
    have i1 : index (a ++ (List.map push []).flatten ++ t0 :: t1 :: T) (a.length + 1) = .ok t1 := by
      rw [show a ++ (List.map push []).flatten ++ t0 :: t1 :: T = (a ++ [t0]) ++ t1 :: T by simp]
      exact index_at _ _ _ (by simp)
    rw [i0, i1]
    simp [h1]
  | s :: sigs, [], f, a, hf, hd, _ => by cases hd
  | [], d :: ders, f, a, hf, hd, _ => by cases hd
  | s :: sigs, d :: ders, 0, a, hf, hd, _ => by simp at hf
  | s :: sigs, d :: ders, f + 1, a, hf, hd, hr => by
    cases hd with
    | cons hd1 hd2 =>
      obtain ⟨hdl, hdl9⟩ := isSig_length hd1
      obtain ⟨rest, hrest⟩ : ∃ rest, (ders.map push).flatten ++ t0 :: t1 :: T = rest := ⟨_, rfl⟩
      obtain ⟨pre, hdec, hpl⟩ := decodeSig_push hd1 (hr s (by simp)) rest
      obtain ⟨dt, hdt⟩ : ∃ dt, d = 0x30 :: dt := by
        obtain ⟨R, S, _, _, _, _, _, _, rfl⟩ := isSig_der hd1
        exact ⟨_, rfl⟩
      have em : a ++ ((d :: ders).map push).flatten ++ t0 :: t1 :: T = a ++ (push d ++ rest) := by rw [← hrest]; simp
      have hn : (UInt8.ofNat d.length).toNat = d.length := u8_len (by omega)
      have hn1 : (UInt8.ofNat d.length + 1).toNat = d.length + 1 := by rw [UInt8.toNat_add, hn]; simp; omega
      obtain ⟨a', ha', ih⟩ := readMultiSigs_ok t0 t1 T h1 sigs ders f (a ++ pre) (by simpa using hf) hd2 (fun x hx => hr x (by simp [hx]))
      refine ⟨a', by
        rw [ha', List.length_append, hpl, List.map_cons, List.flatten_cons, List.length_append]
        have : (push d).length = d.length + 1 := by simp [push]
        omega, ?_⟩
      rw [em, readMultiSigs, if_neg (by rw [List.length_append, List.length_append, show (push d).length = d.length + 1 by simp [push]]; omega)]
      have i0 : index (a ++ (push d ++ rest)) a.length = .ok (UInt8.ofNat d.length) := by simp [push]
      have i1 : index (a ++ (push d ++ rest)) (a.length + 1) = .ok 0x30 := by
        rw [show a ++ (push d ++ rest) = (a ++ [UInt8.ofNat d.length]) ++ 0x30 :: (dt ++ rest) by simp [push, hdt]]
        exact index_at _ _ _ (by simp)
      rw [i0, i1]
      simp only [Res.bind_ok, ne_eq, not_true_eq_false, if_false]
      rw [if_neg (by rw [hn]; simp [push]), List.drop_left, hn, hdec, Res.bind_ok]
      simp only [List.take_left, hn1]
      rw [List.append_assoc (a ++ pre), hrest, List.append_assoc a] at ih
      rw [show a.length + (d.length + 1) = (a ++ pre).length by simp [hpl], ih]
      rfl

theorem readMultiKeys_ok (limit plen : Nat) (rest : Bytes) : ∀ (keys : List Bytes) (a : Bytes), (∀ k ∈ keys, k.length = 33) →
    a.length + 34 * keys.length ≤ limit → a.length + 34 * keys.length ≤ plen →
    readMultiKeys limit plen (a ++ (keys.map push).flatten ++ rest) keys.length a.length = .ok keys
  | [], a, _, _, _ => rfl
  | k :: keys, a, hk, h1, h2 => by
    have hkl := hk k (by simp)
    simp only [List.length_cons] at h1 h2
    have em : a ++ ((k :: keys).map push).flatten ++ rest = (a ++ push k) ++ (keys.map push).flatten ++ rest := by simp
    have hp : (push k).length = 34 := by simp [push, hkl]
    have ih := readMultiKeys_ok limit plen rest keys (a ++ push k) (fun x hx => hk x (by simp [hx])) (by simp [hp]; omega) (by simp [hp]; omega)
    rw [List.length_cons, readMultiKeys, if_neg (by omega), if_neg (by omega), em]
    have i0 : index ((a ++ push k) ++ (keys.map push).flatten ++ rest) a.length = .ok 0x21 := by
      rw [show (a ++ push k) ++ (keys.map push).flatten ++ rest = a ++ 0x21 :: (k ++ (keys.map push).flatten ++ rest) by simp [push, hkl]]
      exact index_at _ _ _ rfl
    have i1 : slice ((a ++ push k) ++ (keys.map push).flatten ++ rest) (a.length + 1) (a.length + 1 + 0x21) = .ok k := by
      rw [show (a ++ push k) ++ (keys.map push).flatten ++ rest = (a ++ [0x21]) ++ (k ++ ((keys.map push).flatten ++ rest)) by simp [push, hkl]]
      exact slice_mid _ k _ (by simp) (by simp [hkl])
    rw [i0]
    simp only [Res.bind_ok, ne_eq, not_true_eq_false, if_false]
    rw [if_neg (by omega), i1, Res.bind_ok, show a.length + 1 + 0x21 = (a ++ push k).length by simp [hp], ih, Res.bind_ok]

/-- The push of a script in front of it: its length, or a push operation and the length. -/
def IsHeader (hdr : Bytes) (n : Nat) : Prop :=
  (hdr = [UInt8.ofNat n] ∧ n < 256) ∨ (hdr = [0x4c, UInt8.ofNat n] ∧ n < 256) ∨ (hdr = 0x4d :: leBytes 2 n ∧ n < 65536)

theorem decodeMulti_std {pre hdr : Bytes} {m : Nat} {keys sigs ders : List Bytes} (h1 : 1 ≤ m) (h2 : m ≤ keys.length) (h3 : keys.length ≤ 15)
    (hk : ∀ k ∈ keys, k.length = 33) (hd : List.Forall₂ (IsSig sty) sigs ders) (hr : ∀ s ∈ sigs, InRange s)
    (hhdr : IsHeader hdr (multisigScript m keys).length) {body : Bytes}
    (hb : body = 0x00 :: ((ders.map push).flatten ++ (hdr ++ multisigScript m keys)))
    (hpre : pre = [] ∨ (pre = 0xfd :: leBytes 2 body.length ∧ body.length < 65536)) :
    decodeMulti (pre ++ body) = if sigs.length = m then .ok ((List.range keys.length).map (fun j => (sigs[j]?, keys[j]?, (sigs[j]?.map fun _ => sty).getD 0))) else .err := by
  have hrl := multisig_length (m := m) hk
  -- the redeem script
  obtain ⟨KP, hKP⟩ : ∃ KP, (keys.map push).flatten = KP := ⟨_, rfl⟩
  have hKPl : KP.length = 34 * keys.length := by
    have e := hrl
    simp only [multisigScript, hKP] at e
    simp at e
    omega
  have hmr : multisigScript m keys = UInt8.ofNat (0x50 + m) :: (KP ++ [UInt8.ofNat (0x50 + keys.length), 0xae]) := by
    simp [multisigScript, hKP]
  have hreq : (UInt8.ofNat (0x50 + m) + 1 - 0x51).toNat = m := by
    rw [UInt8.toNat_sub, UInt8.toNat_add, u8_len (by omega)]
    simp; omega
  have hny : (UInt8.ofNat (0x50 + keys.length)).toNat = 0x50 + keys.length := u8_len (by omega)
  -- what stands behind the signatures
  obtain ⟨t0, t1, T, hT, ht1⟩ : ∃ t0 t1 T, hdr ++ multisigScript m keys = t0 :: t1 :: T ∧ t1 ≠ 0x30 := by
    have par : ∀ n : Nat, n % 2 = 1 → UInt8.ofNat n ≠ 0x30 := by
      intro n hn hc
      have := congrArg UInt8.toNat hc
      simp at this
      omega
    rcases hhdr with ⟨rfl, _⟩ | ⟨rfl, _⟩ | ⟨rfl, _⟩
    · refine ⟨_, UInt8.ofNat (0x50 + m), _, by rw [hmr]; rfl, ?_⟩
      intro hc
      have := congrArg UInt8.toNat hc
      rw [u8_len (by omega)] at this
      simp at this
      omega
    · exact ⟨_, _, _, rfl, par _ (by omega)⟩
    · refine ⟨0x4d, UInt8.ofNat (multisigScript m keys).length, _, rfl, par _ (by omega)⟩
  have hlim : (pre ++ body).length = (pre ++ [0x00]).length + ((ders.map push).flatten).length + (t0 :: t1 :: T).length := by
    rw [hb, hT]; simp only [List.length_append, List.length_cons, List.length_nil]; omega
  obtain ⟨a', ha', hrms⟩ := readMultiSigs_ok t0 t1 T ht1 sigs ders ((pre ++ body).length + 1) (pre ++ [0x00]) (by
    have : ders.length ≤ ((ders.map push).flatten).length := by
      clear hd hb hlim
      induction ders with
      | nil => simp
      | cons s l ih => simp [push] at ih ⊢; omega
    omega) hd hr
  have hmem : pre ++ [0x00] ++ (ders.map push).flatten ++ t0 :: t1 :: T = pre ++ body := by rw [hb, hT]; simp
  rw [hmem] at hrms
  have hlim' : (pre ++ body).length = (a' ++ (hdr ++ multisigScript m keys)).length := by
    rw [hlim, hT, List.length_append (as := a'), ha']
  rw [← hT] at hrms
  obtain ⟨limit, hlimit⟩ : ∃ limit, (pre ++ body).length = limit := ⟨_, rfl⟩
  have hz : ∃ j x, j + 1 = (pre ++ [0x00]).length ∧ index (pre ++ body) j = .ok 0x00 ∧ index (pre ++ body) 0 = .ok x ∧
      multiStart (pre ++ body) x = .ok j := by
    rcases hpre with rfl | ⟨hp, hbl⟩
    · exact ⟨0, 0, by simp, by rw [hb]; rfl, by rw [hb]; rfl, rfl⟩
    · refine ⟨3, 0xfd, by rw [hp]; simp, by rw [hb]; exact index_at _ _ _ (by rw [hp]; simp), by rw [hp]; rfl, ?_⟩
      have hl3 : limit = body.length + 3 := by rw [← hlimit, hp]; simp; omega
      rw [multiStart, if_neg (by decide), if_pos rfl, hlimit, if_neg (by omega), if_neg]
      rw [hp]
      simp only [List.cons_append, List.drop_succ_cons, List.drop_zero]
      rw [List.take_left' (by simp), leNat_leBytes_of_lt (by simpa using hbl), hl3]
      simp
  obtain ⟨j, x, hj, hzero, hx, hstart⟩ := hz
  have hne : pre ++ body ≠ [] := by rw [hb]; simp
  unfold decodeMulti
  rw [if_neg hne]
  simp only [hlimit] at ⊢ hrms hlim'
  rw [hx, Res.bind_ok, hstart, Res.bind_ok, hzero, Res.bind_ok, if_neg (by simp), hj, hrms, Res.bind_ok]
  simp only
  -- the header
  have hhd : ∃ c, at' (a' ++ (hdr ++ multisigScript m keys)) limit a'.length = .ok c ∧
      multiHeader (a' ++ (hdr ++ multisigScript m keys)) limit a'.length c = .ok ((multisigScript m keys).length, (a' ++ hdr).length) := by
    unfold multiHeader
    rcases hhdr with ⟨rfl, hn⟩ | ⟨rfl, hn⟩ | ⟨rfl, hn⟩
    · refine ⟨_, by rw [at', if_neg (by rw [hlim']; simp), List.singleton_append, index_at _ _ _ rfl], ?_⟩
      rw [if_neg (u8_ofNat_ne hn (by simp; omega)), if_neg (u8_ofNat_ne hn (by simp; omega)), u8_len hn]
      simp
    · refine ⟨0x4c, by rw [at', if_neg (by rw [hlim']; simp)]; exact index_at _ _ _ rfl, ?_⟩
      rw [if_pos rfl, at', if_neg (by rw [hlim']; simp)]
      have : index (a' ++ ([0x4c, UInt8.ofNat (multisigScript m keys).length] ++ multisigScript m keys)) (a'.length + 1) =
          .ok (UInt8.ofNat (multisigScript m keys).length) := by
        rw [show a' ++ ([0x4c, UInt8.ofNat (multisigScript m keys).length] ++ multisigScript m keys) =
          (a' ++ [0x4c]) ++ UInt8.ofNat (multisigScript m keys).length :: multisigScript m keys by simp]
        exact index_at _ _ _ (by simp)
      rw [this, Res.bind_ok, u8_len hn]
      simp
    · refine ⟨0x4d, by rw [at', if_neg (by rw [hlim']; simp)]; exact index_at _ _ _ rfl, ?_⟩
      rw [if_neg (by decide), if_pos rfl, if_neg (by rw [hlim']; simp)]
      have : ((a' ++ (0x4d :: leBytes 2 (multisigScript m keys).length ++ multisigScript m keys)).drop (a'.length + 1)).take 2 =
          leBytes 2 (multisigScript m keys).length := by
        rw [← List.drop_drop, List.drop_left]
        simp only [List.cons_append, List.drop_succ_cons, List.drop_zero]
        exact List.take_left' (by simp)
      rw [this, leNat_leBytes_of_lt (by simpa using hn)]
      simp
  obtain ⟨c, hc1, hc2⟩ := hhd
  rw [hc1, Res.bind_ok, hc2, Res.bind_ok]
  simp only
  obtain ⟨A, hA⟩ : ∃ A, a' ++ hdr = A := ⟨_, rfl⟩
  rw [← List.append_assoc a', hA] at hlim' ⊢
  have hlimA : limit = A.length + (multisigScript m keys).length := by rw [hlim', List.length_append]
  have i1 : at' (A ++ multisigScript m keys) limit A.length = .ok (UInt8.ofNat (0x50 + m)) := by
    rw [at', if_neg (by omega), hmr]
    exact index_at _ _ _ rfl
  rw [i1, Res.bind_ok]
  by_cases hl : sigs.length = m
  swap
  · rw [if_pos (by rw [hreq]; simpa using Ne.symm hl), if_neg hl]
  rw [if_neg (by rw [hreq]; simp [hl]), if_neg (by omega), if_pos hl]
  have i2 : index (A ++ multisigScript m keys) (limit - 1) = .ok 0xae := by
    rw [hmr, show A ++ UInt8.ofNat (0x50 + m) :: (KP ++ [UInt8.ofNat (0x50 + keys.length), 0xae]) =
      (A ++ UInt8.ofNat (0x50 + m) :: (KP ++ [UInt8.ofNat (0x50 + keys.length)])) ++ 0xae :: [] by simp]
    exact index_at _ _ _ (by simp; omega)
  have i3 : index (A ++ multisigScript m keys) (limit - 2) = .ok (UInt8.ofNat (0x50 + keys.length)) := by
    rw [hmr, show A ++ UInt8.ofNat (0x50 + m) :: (KP ++ [UInt8.ofNat (0x50 + keys.length), 0xae]) =
      (A ++ UInt8.ofNat (0x50 + m) :: KP) ++ UInt8.ofNat (0x50 + keys.length) :: [0xae] by simp]
    exact index_at _ _ _ (by simp; omega)
  have hmA : A ++ multisigScript m keys = (A ++ [UInt8.ofNat (0x50 + m)]) ++ (KP ++ [UInt8.ofNat (0x50 + keys.length), 0xae]) := by
    rw [hmr]; simp
  have i4 : slice (A ++ multisigScript m keys) (A.length + 1) (limit - 2) = .ok KP := by
    rw [hmA]
    exact slice_mid _ KP _ (by simp) (by omega)
  have i5 : (A ++ multisigScript m keys).drop (A.length + 1) = KP ++ [UInt8.ofNat (0x50 + keys.length), 0xae] := by
    rw [hmA]
    exact List.drop_left' (by simp)
  have hrk := readMultiKeys_ok (multisigScript m keys).length KP.length [UInt8.ofNat (0x50 + keys.length), 0xae] keys [] hk (by simp; omega) (by simp; omega)
  rw [hKP] at hrk
  simp only [List.nil_append, List.length_nil] at hrk
  rw [i2, Res.bind_ok, if_neg (by simp), i3, Res.bind_ok, i4, Res.bind_ok, i5, hny, show 0x50 + keys.length + 1 - 0x51 = keys.length by omega, hrk,
    Res.bind_ok]
  rw [List.length_map, hl, Nat.max_eq_left h2]
  congr 2
  funext j
  simp [Function.comp_def]

theorem decodeMulti_ok {pre hdr : Bytes} {m : Nat} {keys sigs ders : List Bytes} (h1 : 1 ≤ m) (h2 : m ≤ keys.length) (h3 : keys.length ≤ 15)
    (hk : ∀ k ∈ keys, k.length = 33) (hd : List.Forall₂ (IsSig sty) sigs ders) (hr : ∀ s ∈ sigs, InRange s) (hl : sigs.length = m)
    (hhdr : IsHeader hdr (multisigScript m keys).length) {body : Bytes}
    (hb : body = 0x00 :: ((ders.map push).flatten ++ (hdr ++ multisigScript m keys)))
    (hpre : pre = [] ∨ (pre = 0xfd :: leBytes 2 body.length ∧ body.length < 65536)) :
    decodeMulti (pre ++ body) = .ok ((List.range keys.length).map (fun j => (sigs[j]?, keys[j]?, (sigs[j]?.map fun _ => sty).getD 0))) := by
  rw [decodeMulti_std h1 h2 h3 hk hd hr hhdr hb hpre, if_pos hl]

/-! ### Reading the signed transaction -/

/-- What reading gives for an input unlocked in this way: without its witness, and with it. -/
def bareIn (sha : Bytes → Bytes) (i : RawIn) (x : Unlocking) : TxIn :=
  match x with
  | .one (.keyHash _) der pub => { baseIn i with inType := .p2pkh, scriptSig := push der ++ push pub }
  | .one (.nested _ k) _ _ => { baseIn i with inType := .p2wpkh, scriptPub := 0x16 :: witnessV0Script k }
  | .one (.native _) _ _ => { baseIn i with inType := .bech32 }
  | .multi ders r =>
    let b := (Unlocking.multi ders r).script sha
    { baseIn i with inType := .multi, scriptMulti := if b.length < 253 then b else 0xfd :: (leBytes 2 b.length ++ b) }
  | .witnessMulti _ r => { baseIn i with inType := .multi, scriptPub := [0x23, 0x22, 0x00, 0x20] ++ sha r }

def readIn (sha : Bytes → Bytes) (i : RawIn) (x : Unlocking) : TxIn :=
  match x with
  | .one (.nested _ _) der pub => { bareIn sha i x with scriptSig := push der ++ push pub }
  | .one (.native _) der pub => { bareIn sha i x with scriptSig := push der ++ push pub }
  | .witnessMulti ders r => { bareIn sha i x with scriptMulti := 0x00 :: ((ders.map push).flatten ++ push r) }
  | _ => bareIn sha i x

/-- The unlocking scripts that are told apart when read: a multi-signature script must be longer than 108 bytes; the script of a witness must be at
most 255 bytes long. -/
def Readable : Unlocking → Prop
  | .one _ _ _ => True
  | .multi ders r => 0x6c < ((Unlocking.multi ders r).script id).length
  | .witnessMulti _ r => r.length < 256

theorem script_multi_length {l ders : List Bytes} {m : Nat} {keys : List Bytes} (hd : List.Forall₂ (IsSig sty) l ders) (hl : l.length ≤ 15)
    (hk : ∀ k ∈ keys, k.length = 33) (h3 : keys.length ≤ 15) (sha : Bytes → Bytes) :
    ((Unlocking.multi ders (multisigScript m keys)).script sha).length < 65536 := by
  have h1 := ders_length hd
  have h2 := multisig_length (m := m) hk
  have h4 : (pushData (multisigScript m keys)).length ≤ (multisigScript m keys).length + 3 := by
    unfold pushData
    split
    · simp
    · split
      · simp
      · simp; omega
  have e : ((Unlocking.multi ders (multisigScript m keys)).script sha).length =
      ((ders.map push).flatten).length + (pushData (multisigScript m keys)).length + 1 := by
    simp only [Unlocking.script, List.length_cons, List.length_append]
  omega

theorem decodeUnlock_fills {sha : Bytes → Bytes} (h32 : ∀ b, (sha b).length = 32) {seg w : Bool} {u : TxUnlock} {h : TxHash} {x : Unlocking}
    (hf : Fills sty seg u h x) (hw : x.stack ≠ [] → w = true) (hs : w = true → seg = true) (hr : x.stack = [] → Readable x) (i : RawIn) (spare : Nat) (rest : Bytes) :
    ∃ y b, varBytes (x.script sha) = y :: b ∧ decodeUnlock w spare y (b ++ rest) =
      .ok ({ inType := (bareIn sha i x).inType, scriptPub := (bareIn sha i x).scriptPub, scriptSig := (bareIn sha i x).scriptSig,
             scriptMulti := (bareIn sha i x).scriptMulti }, rest) := by
  cases hf with
  | one so hseg =>
    rename_i o sig pub der
    obtain ⟨ok, -, -, -, -, hsig, hpub⟩ := so
    obtain ⟨hdl, hdl9⟩ := isSig_length hsig
    cases o with
    | keyHash k =>
      have hl : (push der ++ push pub).length = der.length + 35 := by simp [push, hpub]
      refine ⟨UInt8.ofNat (push der ++ push pub).length, push der ++ push pub, ?_, ?_⟩
      · show varBytes (push der ++ push pub) = _
        rw [varBytes_push _ (by omega)]; rfl
      · unfold decodeUnlock
        rw [if_neg (u8_ofNat_ne0 (by omega) (by omega)), if_neg (u8_ofNat_ne (by omega) (by rw [hl]; simp)),
          if_neg (u8_ofNat_ne (by omega) (by show _ ≠ 35; omega)), if_pos (u8_ofNat_le (by show _ ≤ 108; omega)),
          takeN_append _ _ (by rw [u8_len (by omega)])]
        rfl
    | nested g k =>
      have hk : k.length = 20 := ok.2
      have hwt : w = true := hw (by simp [Unlocking.stack, KeyOutput.stack])
      refine ⟨0x17, 0x16 :: witnessV0Script k, ?_, ?_⟩
      · show varBytes (push (witnessV0Script k)) = _
        rw [varBytes_push _ (by simp [push, witnessV0Script, hk])]
        simp [push, witnessV0Script, hk]
      · unfold decodeUnlock
        rw [if_neg (by decide), if_pos rfl, hwt, takeN_append _ _ (by simp [push, witnessV0Script, hk])]
        rfl
    | native k =>
      have hwt : w = true := hw (by simp [Unlocking.stack, KeyOutput.stack])
      exact ⟨0, [], rfl, by rw [hwt]; rfl⟩
  | multi sm hseg =>
    rename_i m keys sigs ders
    have hwf : w = false := by
      cases w with
      | false => rfl
      | true => rw [hs rfl] at hseg; simp at hseg
    have hb := script_multi_length (m := m) sm.dersOk (by have := sm.le; have := sm.few; simp; omega) sm.keysLen sm.few sha
    have hr' : 0x6c < ((Unlocking.multi ders (multisigScript m keys)).script sha).length := hr rfl
    show ∃ y b, varBytes ((Unlocking.multi ders (multisigScript m keys)).script sha) = y :: b ∧ decodeUnlock w spare y (b ++ rest) =
      .ok ({ inType := .multi, scriptPub := [], scriptSig := [], scriptMulti :=
        if ((Unlocking.multi ders (multisigScript m keys)).script sha).length < 253 then (Unlocking.multi ders (multisigScript m keys)).script sha
        else 0xfd :: (leBytes 2 ((Unlocking.multi ders (multisigScript m keys)).script sha).length ++
          (Unlocking.multi ders (multisigScript m keys)).script sha) }, rest)
    generalize (Unlocking.multi ders (multisigScript m keys)).script sha = b at hb hr' ⊢
    by_cases hl : b.length < 253
    · refine ⟨UInt8.ofNat b.length, b, by rw [varBytes_push _ hl]; rfl, ?_⟩
      unfold decodeUnlock
      have hgt : ¬ (UInt8.ofNat b.length ≤ 0x6c) := by
        intro hc
        have hc' : (UInt8.ofNat b.length).toNat ≤ 0x6c := hc
        rw [u8_len (by omega)] at hc'
        omega
      have hgt' : ¬ (UInt8.ofNat b.length > 0xfd) := by
        intro hc
        have hc' : (0xfd : UInt8).toNat < (UInt8.ofNat b.length).toNat := hc
        rw [u8_len (by omega)] at hc'
        simp at hc'
        omega
      rw [if_neg (u8_ofNat_ne0 (by omega) (by omega)), if_neg (u8_ofNat_ne (by omega) (by simp; omega)),
        if_neg (u8_ofNat_ne (by omega) (by simp; omega)), if_neg hgt, hwf]
      simp only [Bool.false_eq_true, if_false]
      rw [if_neg (u8_ofNat_ne (by omega) (by simp; omega)), if_neg hgt', takeN_append _ _ (by rw [u8_len (by omega)])]
      simp [hl]
    · refine ⟨0xfd, leBytes 2 b.length ++ b, ?_, ?_⟩
      · simp only [varBytes, compactSize]
        rw [if_neg hl, if_pos (by omega)]
        rfl
      · have e1 : (leBytes 2 b.length ++ b ++ rest).take 2 = leBytes 2 b.length := by
          rw [List.append_assoc, List.take_left' (by simp)]
        have e2 : leNat (leBytes 2 b.length) = b.length := leNat_leBytes_of_lt (by omega)
        unfold decodeUnlock
        rw [if_neg (by decide), if_neg (by decide), if_neg (by decide), if_neg (by decide), hwf]
        simp only [Bool.false_eq_true, if_false, if_true, e1, e2]
        rw [if_neg (by simp; omega), if_neg (by simp; omega), if_neg (by simp; omega), List.take_left' (by simp; omega), List.drop_left' (by simp; omega)]
        simp [hl]
  | witnessMulti sm hseg =>
    rename_i m keys sigs ders
    have hwt : w = true := hw (by simp [Unlocking.stack])
    have h32' := h32 (multisigScript m keys)
    refine ⟨0x23, [0x22, 0x00, 0x20] ++ sha (multisigScript m keys), ?_, ?_⟩
    · show varBytes (push (witnessV0Script (sha (multisigScript m keys)))) = _
      rw [varBytes_push _ (by simp [push, witnessV0Script, h32'])]
      simp [push, witnessV0Script, h32']
    · unfold decodeUnlock
      rw [if_neg (by decide), if_neg (by decide), if_pos rfl, hwt, takeN_append _ _ (by simp [h32'])]
      rfl

theorem decodeIn_fills {sha : Bytes → Bytes} (h32 : ∀ b, (sha b).length = 32) {seg w : Bool} {u : TxUnlock} {h : TxHash} {x : Unlocking}
    (hf : Fills sty seg u h x) (hw : x.stack ≠ [] → w = true) (hs : w = true → seg = true) (hr : x.stack = [] → Readable x) (i : RawIn) (hi : i.prev.length = 32)
    (spare : Nat) (rest : Bytes) :
    decodeIn w spare (RawIn.ser { i with script := x.script sha } ++ rest) = .ok (bareIn sha i x, rest) := by
  obtain ⟨y, b, h1, h2⟩ := decodeUnlock_fills h32 hf hw hs hr i spare (leBytes 4 i.sequence ++ rest)
  unfold decodeIn RawIn.ser RawIn.outpoint
  simp only [h1, List.append_assoc, List.cons_append]
  rw [takeN_append _ _ hi]
  simp only [Res.bind_ok]
  rw [takeN_append _ _ (by simp)]
  simp only [Res.bind_ok, take1, h2, takeSequence]
  rw [if_neg (by simp), List.take_left' (by simp), List.drop_left' (by simp)]
  simp only [Res.bind_ok]
  congr 2
  unfold bareIn
  split <;> rfl

theorem decodeIns_fills {sha : Bytes → Bytes} (h32 : ∀ b, (sha b).length = 32) {seg w : Bool} (hs : w = true → seg = true) (spare : Nat)
    (rest : Bytes) : ∀ (ins : List RawIn) (l : List Entry), l.length = ins.length → (∀ e ∈ l, Fills sty seg e.unlock e.hash e.expect) →
    (∀ e ∈ l, e.expect.stack ≠ [] → w = true) → (∀ e ∈ l, Readable e.expect) → (∀ i ∈ ins, i.prev.length = 32) →
    decodeIns w spare ins.length
      ((List.zipWith (fun i x => RawIn.ser { i with script := Unlocking.script sha x }) ins (l.map Entry.expect)).flatten ++ rest) =
      .ok (List.zipWith (bareIn sha) ins (l.map Entry.expect), rest)
  | [], [], _, _, _, _, _ => rfl
  | [], _ :: _, h, _, _, _, _ => by simp at h
  | _ :: _, [], h, _, _, _, _ => by simp at h
  | i :: ins, e :: l, hl, hf, hw, hr, hi => by
    simp only [List.length_cons, List.map_cons, List.zipWith_cons_cons, List.flatten_cons, List.append_assoc]
    rw [decodeIns, decodeIn_fills h32 (hf e (by simp)) (hw e (by simp)) hs (fun _ => hr e (by simp)) i (hi i (by simp)), Res.bind_ok]
    simp only
    rw [decodeIns_fills h32 hs spare rest ins l (by simpa using hl) (fun x hx => hf x (by simp [hx])) (fun x hx => hw x (by simp [hx]))
      (fun x hx => hr x (by simp [hx])) (fun x hx => hi x (by simp [hx])), Res.bind_ok]

theorem decodeWitness_fills {sha : Bytes → Bytes} {seg : Bool} (hseg : seg = true) {u : TxUnlock} {h : TxHash} {x : Unlocking}
    (hf : Fills sty seg u h x) (hr : Readable x) (i : RawIn) (rest : Bytes) :
    decodeWitness seg (bareIn sha i x) (Unlocking.count x ++ rest) = .ok (readIn sha i x, rest) := by
  cases hf with
  | one so hw =>
    rename_i o sig pub der
    obtain ⟨ok, -, -, -, -, hsig, hpub⟩ := so
    have hdl := (isSig_length hsig).1
    have e : stackBytes [der, pub] ++ rest = 0x02 :: (UInt8.ofNat der.length :: ((der ++ push pub) ++ rest)) := by
      simp [stackBytes, compactSize, varBytes_push der (by omega), varBytes_push pub (by omega), push]
    have e2 : takeN ((UInt8.ofNat der.length).toNat + 35) (UInt8.ofNat der.length :: ((der ++ push pub) ++ rest)) = .ok (push der ++ push pub, rest) := by
      rw [u8_len (by omega), show UInt8.ofNat der.length :: ((der ++ push pub) ++ rest) = (push der ++ push pub) ++ rest by simp [push]]
      exact takeN_append _ _ (by simp [push, hpub])
    cases o with
    | keyHash k => rfl
    | nested g k =>
      show decodeWitness seg _ (stackBytes [der, pub] ++ rest) = _
      rw [e]
      unfold decodeWitness
      simp only [take1, Res.bind_ok, bareIn]
      rw [if_neg (by simp), e2]
      rfl
    | native k =>
      show decodeWitness seg _ (stackBytes [der, pub] ++ rest) = _
      rw [e]
      unfold decodeWitness
      simp only [take1, Res.bind_ok, bareIn]
      rw [if_neg (by simp), e2]
      rfl
  | multi sm h2 => rw [hseg] at h2; simp at h2
  | witnessMulti sm h2 =>
    rename_i m keys sigs ders
    have h1 := sm.pos
    have hle := sm.le
    have hfew := sm.few
    have hwm : WitnessMulti (0x00 :: ((ders.map push).flatten ++ push (multisigScript m keys))) := by
      refine ⟨ders, multisigScript m keys, rfl, ?_, hr, ⟨UInt8.ofNat (0x50 + m), _, rfl, u8_ofNat_ne (by omega) (by simp; omega)⟩, ?_⟩
      · intro d hd
        obtain ⟨k, hk, hkd⟩ := List.mem_iff_getElem.mp hd
        obtain ⟨hlen, hall⟩ := List.forall₂_iff_get.mp sm.dersOk
        have hs := hall k (by rw [hlen]; exact hk) hk
        simp only [List.get_eq_getElem, hkd] at hs
        have := (isSig_length hs).1
        obtain ⟨R, S, _, _, _, _, _, _, rfl⟩ := isSig_der hs
        exact ⟨_, rfl, by omega⟩
      · rw [List.getLastD_eq_getLast?, multisig_last]; rfl
    show decodeWitness seg (bareIn sha i (.witnessMulti ders (multisigScript m keys)))
      (0x04 :: (0x00 :: ((ders.map push).flatten ++ push (multisigScript m keys)) ++ rest)) = _
    unfold decodeWitness
    simp only [take1, Res.bind_ok, bareIn, hseg]
    rw [if_neg (by simp), if_neg (by simp), decodeWitnessMulti_good hwm, Res.bind_ok]
    rfl

theorem decodeWitnesses_fills {sha : Bytes → Bytes} {seg : Bool} (hseg : seg = true) (rest : Bytes) : ∀ (ins : List RawIn) (l : List Entry),
    l.length = ins.length → (∀ e ∈ l, Fills sty seg e.unlock e.hash e.expect) → (∀ e ∈ l, Readable e.expect) →
    decodeWitnesses seg (List.zipWith (bareIn sha) ins (l.map Entry.expect)) ((l.map fun e => Unlocking.count e.expect).flatten ++ rest) =
      .ok (List.zipWith (readIn sha) ins (l.map Entry.expect), rest)
  | [], [], _, _, _ => rfl
  | [], _ :: _, h, _, _ => by simp at h
  | _ :: _, [], h, _, _ => by simp at h
  | i :: ins, e :: l, hl, hf, hr => by
    simp only [List.map_cons, List.zipWith_cons_cons, List.flatten_cons, List.append_assoc]
    rw [decodeWitnesses, decodeWitness_fills hseg (hf e (by simp)) (hr e (by simp)), Res.bind_ok]
    simp only
    rw [decodeWitnesses_fills hseg rest ins l (by simpa using hl) (fun x hx => hf x (by simp [hx])) (fun x hx => hr x (by simp [hx])), Res.bind_ok]

theorem readIn_bare {sha : Bytes → Bytes} {i : RawIn} {x : Unlocking} (h : x.stack = []) : readIn sha i x = bareIn sha i x := by
  cases x with
  | one o der pub =>
    cases o with
    | keyHash k => rfl
    | nested => simp [Unlocking.stack, KeyOutput.stack] at h
    | native => simp [Unlocking.stack, KeyOutput.stack] at h
  | multi => rfl
  | witnessMulti => simp [Unlocking.stack] at h

theorem zipWith_bare {sha : Bytes → Bytes} : ∀ (ins : List RawIn) (l : List Entry), (∀ e ∈ l, e.expect.stack = []) →
    List.zipWith (bareIn sha) ins (l.map Entry.expect) = List.zipWith (readIn sha) ins (l.map Entry.expect)
  | [], _, _ => rfl
  | _ :: _, [], _ => rfl
  | i :: ins, e :: l, h => by
    simp only [List.map_cons, List.zipWith_cons_cons]
    rw [zipWith_bare ins l (fun x hx => h x (by simp [hx])), readIn_bare (h e (by simp))]

/-- The signed transaction as it is read. -/
def readTx (sha : Bytes → Bytes) (t : RawTx) (l : List Entry) : Tx :=
  { ofRaw t with
    witness := l.any (fun e => e.expect.stack ≠ [])
    vins := List.zipWith (readIn sha) t.ins (l.map Entry.expect) }

theorem decodeTx_fills {sha : Bytes → Bytes} (h32 : ∀ b, (sha b).length = 32) {seg : Bool} {t : RawTx} (hu : Unsigned t) (l : List Entry)
    (hl : l.length = t.ins.length) (hf : ∀ e ∈ l, Fills sty seg e.unlock e.hash e.expect) (hr : ∀ e ∈ l, Readable e.expect) (spare : Nat) :
    decodeTx spare seg (unlockedBytes sha t l) = .ok (readTx sha t l) := by
  have h1 := hu.insPos
  have h2 := hu.insLt
  have h3 := hu.outsPos
  have h4 := hu.outsLt
  have hsw : ∀ e ∈ l, e.expect.stack ≠ [] → l.any (fun e => e.expect.stack ≠ []) = true := by
    intro e he hs
    rw [List.any_eq_true]
    exact ⟨e, he, by simpa using hs⟩
  have hsg := stack_seg hf
  have nIn : (UInt8.ofNat t.ins.length).toNat = t.ins.length := u8_len (by omega)
  have nOut : (UInt8.ofNat t.outs.length).toNat = t.outs.length := u8_len (by omega)
  have zIn : UInt8.ofNat t.ins.length ≠ 0 := u8_ofNat_ne0 (by omega) (by omega)
  have zOut : UInt8.ofNat t.outs.length ≠ 0 := u8_ofNat_ne0 (by omega) (by omega)
  have hnone : l.any (fun e => e.expect.stack ≠ []) = false → ∀ e ∈ l, e.expect.stack = [] := by
    intro h e he
    by_contra hc
    rw [hsw e he hc] at h
    simp at h
  unfold readTx unlockedBytes
  generalize hw : l.any (fun e => e.expect.stack ≠ []) = w at hsw hsg hnone ⊢
  have houts : (t.outs.map RawOut.ser).flatten =
      ((ofRaw t).vouts.map (fun o => o.amount ++ [UInt8.ofNat o.lockScript.length] ++ o.lockScript)).flatten := by
    simp only [ofRaw, List.map_map]
    congr 1
    apply List.map_congr_left
    intro o ho
    simp only [Function.comp, RawOut.ser, varBytes, compactSize_small (hu.outs o ho).2.2, List.append_assoc]
  have tail : decodeBody spare seg w (leBytes 4 t.version) ([UInt8.ofNat t.ins.length] ++
      ((List.zipWith (fun i x => RawIn.ser { i with script := Unlocking.script sha x }) t.ins (l.map Entry.expect)).flatten ++
      ([UInt8.ofNat t.outs.length] ++ ((t.outs.map RawOut.ser).flatten ++
      ((if w = true then (l.map fun e => Unlocking.count e.expect).flatten else []) ++ leBytes 4 t.lockTime))))) =
      .ok { ofRaw t with witness := w, vins := List.zipWith (readIn sha) t.ins (l.map Entry.expect) } := by
    unfold decodeBody
    simp only [List.cons_append, List.nil_append, take1, Res.bind_ok]
    rw [if_neg zIn, nIn, decodeIns_fills h32 hsg spare _ t.ins l hl hf hsw hr (fun i hi => (hu.ins i hi).1)]
    simp only [Res.bind_ok]
    rw [if_neg zOut, nOut, houts, show t.outs.length = (ofRaw t).vouts.length by simp [ofRaw], decodeOuts_good _ (good_ofRaw hu seg).outs]
    simp only [Res.bind_ok]
    cases w with
    | true =>
      simp only [if_true]
      rw [decodeWitnesses_fills (hsg rfl) _ _ _ hl hf hr]
      simp only [Res.bind_ok]
      rw [← List.append_nil (leBytes 4 t.lockTime), takeN_append _ _ (by simp)]
      simp [ofRaw]
    | false =>
      simp only [Bool.false_eq_true, if_false, List.nil_append]
      rw [← List.append_nil (leBytes 4 t.lockTime), takeN_append _ _ (by simp), zipWith_bare _ _ (hnone rfl)]
      simp [ofRaw]
  unfold decodeTx
  simp only [RawTx.withScripts, withScripts_ser, compactSize_small h2, compactSize_small h4, List.append_assoc]
  rw [takeN_append _ _ (by simp)]
  simp only [Res.bind_ok]
  rw [if_neg (by rw [hu.version]; decide)]
  cases w with
  | true =>
    rw [if_neg (by simp)]
    simp only [if_true, List.cons_append, List.nil_append] at tail ⊢
    rw [if_neg (by simp)]
    exact tail
  | false =>
    rw [if_neg (by simp)]
    simp only [Bool.false_eq_true, if_false, List.cons_append, List.nil_append] at tail ⊢
    split
    · rename_i h; simp only [List.cons.injEq] at h; exact absurd h.1 zIn
    · exact tail

/-! ### The messages of the signed transaction -/

/-- `scriptMulti` is the only field that emptying an input leaves; the messages do not depend on it. -/
def noMulti (i : TxIn) : TxIn := { i with scriptMulti := [] }

theorem concatAll_map {α β : Type} (f : β → Res Bytes) (g : α → β) : ∀ (l : List α), concatAll f (l.map g) = concatAll (fun x => f (g x)) l
  | [] => rfl
  | x :: l => by rw [List.map_cons, concatAll, concatAll, concatAll_map f g l]

theorem concatAll_congr {α : Type} {f g : α → Res Bytes} : ∀ (l : List α), (∀ x ∈ l, f x = g x) → concatAll f l = concatAll g l
  | [], _ => rfl
  | x :: l, h => by rw [concatAll, concatAll, h x (by simp), concatAll_congr l (fun y hy => h y (by simp [hy]))]

theorem encodeTx_noMulti {seg : Bool} (t : Tx) (h : ∀ i ∈ t.vins, i.inType = .empty) :
    encodeTx seg { t with vins := t.vins.map noMulti } = encodeTx seg t := by
  have e1 : concatAll (encodeIn seg) (t.vins.map noMulti) = concatAll (encodeIn seg) t.vins := by
    rw [concatAll_map]
    apply concatAll_congr
    intro i hi
    simp [encodeIn, noMulti, unlockBytes, h i hi]
  have e2 : concatAll encodeWitness (t.vins.map noMulti) = concatAll encodeWitness t.vins := by
    rw [concatAll_map]
    apply concatAll_congr
    intro i hi
    simp [encodeWitness, noMulti, h i hi]
  unfold encodeTx
  simp only [e1, e2, List.map_eq_nil_iff, List.length_map]

theorem modify_map (l : List TxIn) (k : Nat) (s : Bytes) :
    (l.map noMulti).modify k (fun i => { i with scriptPub := s }) = (l.modify k (fun i => { i with scriptPub := s })).map noMulti := by
  induction l generalizing k with
  | nil => cases k <;> rfl
  | cons i l ih =>
    cases k with
    | zero => rfl
    | succ k => simp only [List.map_cons, List.modify_succ_cons, ih]

theorem segwit_noMulti {H : Hashes} (t : Tx) (r : Bytes) (k : Nat) (amount : UInt64) (f : Bytes → Res Bytes) :
    (index (t.vins.map noMulti) k >>= fun i => segwitBytesForSig H { t with vins := t.vins.map noMulti } r i amount >>= f) =
      (index t.vins k >>= fun i => segwitBytesForSig H t r i amount >>= f) := by
  have e1 : prevoutsBytes { t with vins := t.vins.map noMulti } = prevoutsBytes t := by
    simp only [prevoutsBytes, List.map_map]; rfl
  have e2 : sequenceBytes { t with vins := t.vins.map noMulti } = sequenceBytes t := by
    simp only [sequenceBytes, List.map_map]; rfl
  have e3 : outputsBytes { t with vins := t.vins.map noMulti } = outputsBytes t := rfl
  by_cases hk : k < t.vins.length
  · rw [index_ok (by simpa using hk), index_ok hk, Res.bind_ok, Res.bind_ok, List.getElem_map]
    unfold segwitBytesForSig
    rw [e1, e2, e3]
    rfl
  · unfold index
    rw [List.getElem?_eq_none (by simpa using hk), List.getElem?_eq_none (by simpa using hk)]
    rfl

theorem bytesForSig_noMulti {H : Hashes} {seg : Bool} (t : Tx) (h : ∀ i ∈ t.vins, i.inType = .empty) (lock redeem : Bytes) (ty : InType)
    (st : UInt8) (k : Nat) (amount : UInt64) :
    bytesForSig H seg { t with vins := t.vins.map noMulti } lock redeem ty st k amount = bytesForSig H seg t lock redeem ty st k amount := by
  have he : ∀ s : Bytes, encodeTx seg { t with vins := (t.vins.map noMulti).modify k (fun i => { i with scriptPub := s }) } =
      encodeTx seg { t with vins := t.vins.modify k (fun i => { i with scriptPub := s }) } := by
    intro s
    rw [modify_map]
    apply encodeTx_noMulti { t with vins := t.vins.modify k (fun i => { i with scriptPub := s }) }
    intro i hi
    simp only at hi
    rw [List.mem_iff_getElem?] at hi
    obtain ⟨j, hj⟩ := hi
    rw [List.getElem?_modify] at hj
    obtain ⟨i0, hj0, rfl⟩ := Option.map_eq_some_iff.mp hj
    have := h i0 (List.mem_of_getElem? hj0)
    split <;> exact this
  have hs := fun r f => segwit_noMulti (H := H) t r k amount f
  unfold bytesForSig
  cases ty <;> simp only [he, hs]

theorem hashForSig_noMulti {H : Hashes} {seg : Bool} {P : AddressPrefix} (t : Tx) (k : Nat) (u : TxUnlock) :
    hashForSig H seg P { t with vins := t.vins.map noMulti } k u = hashForSig H seg P t k u := by
  have e : (t.vins.map noMulti).map setEmpty = (t.vins.map setEmpty).map noMulti := by
    simp [setEmpty, noMulti, Function.comp_def]
  have hb := bytesForSig_noMulti (H := H) (seg := seg) { t with vins := t.vins.map setEmpty } (by
    intro i hi
    obtain ⟨j, _, rfl⟩ := List.mem_map.mp hi
    rfl)
  simp only at hb
  unfold hashForSig
  simp only [e, hb]

theorem hashesLoop_congr {H : Hashes} {seg : Bool} {P : AddressPrefix} : ∀ (us : List TxUnlock) (t t' : Tx) (idx : Nat),
    (∀ k v, hashForSig H seg P t k v = hashForSig H seg P t' k v) → hashesLoop H seg P t idx us = hashesLoop H seg P t' idx us
  | [], _, _, _, _ => rfl
  | u :: us, t, t', idx, h => by
    rw [hashesLoop, hashesLoop, h, hashesLoop_congr us (afterSig seg t idx u) (afterSig seg t' idx u) (idx + 1)]
    intro k v
    rw [hashForSig_after, hashForSig_after, h]

theorem noMulti_read {sha : Bytes → Bytes} : ∀ (ins : List RawIn) (l : List Entry), l.length = ins.length →
    ((List.zipWith (readIn sha) ins (l.map Entry.expect)).map setEmpty).map noMulti = ins.map baseIn
  | [], _, _ => by simp
  | _ :: _, [], h => by simp at h
  | i :: ins, e :: l, h => by
    simp only [List.map_cons, List.zipWith_cons_cons]
    rw [noMulti_read ins l (by simpa using h)]
    congr 1
    generalize e.expect = x
    unfold readIn
    split
    · rfl
    · rfl
    · rfl
    · unfold bareIn
      split <;> rfl

/-- The messages computed from the signed transaction are those computed from the unsigned one. -/
theorem hashes_signed {H : Hashes} {P : AddressPrefix} {seg : Bool} {t : RawTx} {sha : Bytes → Bytes} {l : List Entry} (hl : l.length = t.ins.length)
    (us : List TxUnlock) : hashesForSig H seg P (cloneEmpty (readTx sha t l)) us = hashesForSig H seg P (ofRaw t) us := by
  have hn : ({ cloneEmpty (readTx sha t l) with vins := (cloneEmpty (readTx sha t l)).vins.map noMulti } : Tx) = ofRaw t := by
    have := noMulti_read (sha := sha) t.ins l hl
    unfold cloneEmpty readTx
    simp only [this]
    rfl
  have hlen : (cloneEmpty (readTx sha t l)).vins.length = (ofRaw t).vins.length := by
    simp [cloneEmpty, readTx, ofRaw, hl]
  unfold hashesForSig
  rw [hlen, show (cloneEmpty (readTx sha t l)).vouts = (ofRaw t).vouts from rfl,
    hashesLoop_congr us (cloneEmpty (readTx sha t l)) (ofRaw t) 0 (fun k v => by rw [← hn, hashForSig_noMulti])]

/-! ### Verification of an input -/

/-- The signature can be read back, its key is on the curve, and it verifies for the message. -/
def Valid (C : Curve) (hash sig pub : Bytes) : Prop :=
  InRange sig ∧ (C.decompress pub).length ≠ 0 ∧ ∀ msg, Hex.decode hash = .ok msg → C.verify ((C.decompress pub).drop 1) msg sig = true

/-- All signatures of a record are valid for its message and the keys beside them, and all of its keys are on the curve. -/
structure ValidRecord (C : Curve) (h : TxHash) : Prop where
  one : ∀ n sig pub, h.normal = some n → n.sigPub = ⟨some sig, some pub⟩ → Valid C h.hash sig pub
  multi : ∀ row ∈ h.multi, ∀ sig pub, row.sigPub = ⟨some sig, some pub⟩ → Valid C h.hash sig pub
  points : ∀ row ∈ h.multi, ∀ k, Hex.decode row.pubkey = .ok k → (C.decompress k).length ≠ 0

theorem hashForSig_parts {H : Hashes} {seg : Bool} {P : AddressPrefix} {t : Tx} {k : Nat} {u : TxUnlock} {th : TxHash} {lock redeem : Bytes}
    {ty : InType} (hc : checkScriptType u.lockScript u.redeemScript = .ok (lock, redeem, ty)) (h : hashForSig H seg P t k u = .ok th) :
    ∃ d, Hex.decode th.hash = .ok d ∧ newTxHash H d lock redeem ty u.sigType P = .ok th := by
  unfold hashForSig at h
  simp only at h
  rw [hc, Res.bind_ok] at h
  obtain ⟨b, _, h4⟩ := Res.bind_eq_ok.mp h
  refine ⟨_, ?_, h4⟩
  rw [newTxHash_hash h4, Hex.decode_encode]

theorem newTxHash_one {H : Hashes} {d lock redeem : Bytes} {ty : InType} {st : UInt8} {P : AddressPrefix} {th : TxHash}
    (hty : ty = .p2pkh ∨ ty = .p2wpkh ∨ ty = .bech32) (h : newTxHash H d lock redeem ty st P = .ok th) :
    th.nRequired = 0 ∧ ∃ a, th.normal = some ⟨a, st, ⟨none, none⟩⟩ := by
  unfold newTxHash at h
  rcases hty with rfl | rfl | rfl <;> simp only at h
  all_goals
    obtain ⟨x, _, h⟩ := Res.bind_eq_ok.mp h
    obtain ⟨y, _, h⟩ := Res.bind_eq_ok.mp h
    simp only [Res.ok.injEq] at h
    rw [← h]
    exact ⟨rfl, _, rfl⟩

theorem decodeSigPub_isSig {sig pub der : Bytes} (h : IsSig sty sig der) (hr : InRange sig) (hp : pub.length = 33) :
    decodeSigPub (push der ++ push pub) = .ok (sig, pub, sty) := by
  obtain ⟨s, h1, h2⟩ := C24_roundtrip_partial sig pub sty h.1 hp h.2.1 h.2.2.1 hr
  unfold encodeSigPub at h1
  rw [encodeSig_isSig h, Res.bind_ok, Res.ok.injEq] at h1
  rw [← h1] at h2
  exact h2

/-- An input with one key. -/
theorem attach_one {C : Curve} {i : TxIn} {th h : TxHash} {sig pub der a : Bytes} {st : UInt8} (hty : i.inType = .p2pkh ∨ i.inType = .p2wpkh ∨ i.inType = .bech32)
    (hs : i.scriptSig = push der ++ push pub) (hsig : IsSig sty sig der) (hp : pub.length = 33) (hn : th.nRequired = 0)
    (hnorm : th.normal = some ⟨a, st, ⟨none, none⟩⟩) {d : Bytes} (hd : Hex.decode th.hash = .ok d) (hh : th.hash = h.hash) (hv : Valid C h.hash sig pub) :
    ∃ th', attach i th = .ok (some th') ∧ verifyOne C th' = .ok true := by
  obtain ⟨v1, v2, v3⟩ := hv
  rw [← hh] at v3
  have hdec := decodeSigPub_isSig hsig v1 hp
  refine ⟨{ th with normal := some { (⟨a, st, ⟨none, none⟩⟩ : NormalTx) with sigType := sty, sigPub := ⟨some sig, some pub⟩ } }, ?_, ?_⟩
  · unfold attach
    rcases hty with e | e | e <;> rw [e] <;> simp only [hs, hdec, hnorm]
  · unfold verifyOne
    simp only [hn, if_true, hd]
    unfold pubPoint
    simp only [Option.getD_some]
    rw [slice_ok (by omega) (by omega), List.take_length, Res.bind_ok, v3 d hd]

theorem filterMap_pos {α : Type} : ∀ (l : List (Option α)) (i : Nat) (s : α), (l.filterMap id)[i]? = some s → ∃ j, i ≤ j ∧ l[j]? = some (some s)
  | [], i, s, h => by simp at h
  | none :: l, i, s, h => by
    obtain ⟨j, h1, h2⟩ := filterMap_pos l i s (by simpa using h)
    exact ⟨j + 1, by omega, by simpa using h2⟩
  | some x :: l, i, s, h => by
    cases i with
    | zero => exact ⟨0, by omega, by simpa using h⟩
    | succ i =>
      obtain ⟨j, h1, h2⟩ := filterMap_pos l i s (by simpa using h)
      exact ⟨j + 1, by omega, by simpa using h2⟩

/-- An input with a multi-signature script. -/
theorem attach_multi {C : Curve} {i : TxIn} {u : TxUnlock} {th h : TxHash} {m : Nat} {keys : List Bytes} {sigs : List (Option Bytes)} {ders : List Bytes} {st : UInt8}
    (hty : i.inType = .multi) (sm : SignedMulti sty u h m keys sigs ders)
    (hdec : (∀ s ∈ (sigs.filterMap id).take m, InRange s) → decodeMulti i.scriptMulti = .ok ((List.range keys.length).map (fun j =>
      (((sigs.filterMap id).take m)[j]?, keys[j]?, (((sigs.filterMap id).take m)[j]?.map fun _ => sty).getD 0))))
    (hn : th.nRequired = UInt8.ofNat m) (hmul : th.multi = keys.map (fun k => ⟨Hex.encode k, st, ⟨none, none⟩⟩))
    {d : Bytes} (hd : Hex.decode th.hash = .ok d) (hh : th.hash = h.hash) (hv : ValidRecord C h) :
    ∃ th', attach i th = .ok (some th') ∧ verifyOne C th' = .ok true := by
  have h1 := sm.pos
  have h2 := sm.le
  have h3 := sm.few
  have hen := sm.enough
  have hrow : ∀ (j : Nat) (s : Bytes), sigs[j]? = some (some s) → ∃ k, keys[j]? = some k ∧ Valid C h.hash s k := by
    intro j s hj
    have hjl : j < keys.length := by rw [← sm.length]; exact (List.getElem?_eq_some_iff.mp hj).1
    refine ⟨keys[j], List.getElem?_eq_getElem _, ?_⟩
    refine hv.multi (multiRow sty keys[j] (some s)) ?_ s keys[j] rfl
    rw [sm.filled, List.mem_iff_getElem?]
    exact ⟨j, by rw [List.getElem?_zipWith, List.getElem?_eq_getElem hjl, hj]⟩
  have hin : ∀ s ∈ (sigs.filterMap id).take m, InRange s := by
    intro s hs
    obtain ⟨n, hn⟩ := List.mem_iff_getElem?.mp (List.mem_of_mem_take hs)
    obtain ⟨j, _, hj⟩ := filterMap_pos _ _ _ hn
    obtain ⟨k, _, hk⟩ := hrow j s hj
    exact hk.1
  have hpts : ∀ k ∈ keys, (C.decompress k).length ≠ 0 := by
    intro k hk
    obtain ⟨j, hj, rfl⟩ := List.mem_iff_getElem.mp hk
    obtain ⟨row, hrow1, hrow2⟩ : ∃ row, row ∈ h.multi ∧ row.pubkey = Hex.encode keys[j] := by
      have hjs : j < sigs.length := by rw [sm.length]; exact hj
      refine ⟨multiRow sty keys[j] sigs[j], ?_, ?_⟩
      · rw [sm.filled, List.mem_iff_getElem?]
        exact ⟨j, by rw [List.getElem?_zipWith, List.getElem?_eq_getElem hj, List.getElem?_eq_getElem hjs]⟩
      · cases sigs[j] <;> rfl
    exact hv.points row hrow1 _ (by rw [hrow2, Hex.decode_encode])
  have hm : (UInt8.ofNat m).toNat = m := u8_len (by omega)
  unfold attach
  rw [hty]
  simp only [hdec hin]
  rw [if_neg (by rw [hmul]; simp)]
  refine ⟨_, rfl, ?_⟩
  obtain ⟨rows, hrows⟩ : ∃ rows, (th.multi.zipIdx).map (fun (p : MultiTx × Nat) =>
      match (List.map (fun j => (((sigs.filterMap id).take m)[j]?, keys[j]?,
        (((sigs.filterMap id).take m)[j]?.map fun _ => sty).getD 0)) (List.range keys.length))[p.2]? with
      | some (sig, pub, st) => { p.1 with sigType := st, sigPub := ⟨sig, pub⟩ }
      | none => p.1) = rows := ⟨_, rfl⟩
  have hget : ∀ j (hj : j < keys.length), ∃ row, rows[j]? = some row ∧ row.sigPub = ⟨((sigs.filterMap id).take m)[j]?, some keys[j]⟩ := by
    intro j hj
    rw [← hrows, hmul, List.getElem?_map, List.getElem?_zipIdx]
    simp only [List.getElem?_map, List.getElem?_eq_getElem hj, Option.map_some, Nat.zero_add]
    refine ⟨_, rfl, ?_⟩
    simp [hj]
  have hrl : rows.length = keys.length := by rw [← hrows, hmul]; simp
  have hgoal : verifyOne C { th with multi := rows } = .ok true := by
    rw [C28_each_signature_partial C { th with multi := rows } d hd]
    · simp only [hn, hm]
      intro i0 hi0
      obtain ⟨s, hs⟩ : ∃ s, (sigs.filterMap id)[i0]? = some s := ⟨_, List.getElem?_eq_getElem (by omega)⟩
      obtain ⟨j, hij, hj⟩ := filterMap_pos _ _ _ hs
      obtain ⟨k, hk, hval⟩ := hrow j s hj
      obtain ⟨hjl, hke⟩ := List.getElem?_eq_some_iff.mp hk
      obtain ⟨r1, e1, e2⟩ := hget i0 (by omega)
      obtain ⟨r2, e3, e4⟩ := hget j hjl
      refine ⟨j, r1, r2, hij, e1, e3, ?_⟩
      rw [e2, e4]
      simp only [Option.getD_some, hke]
      rw [List.getElem?_take_of_lt hi0, hs]
      exact hval.2.2 d (by rw [← hh]; exact hd)
    · simp only [hn]
      intro hc
      have := congrArg UInt8.toNat hc
      rw [hm] at this
      simp at this
      omega
    · intro row hr
      obtain ⟨j, hj⟩ := List.mem_iff_getElem?.mp hr
      have hjl : j < keys.length := by rw [← hrl]; exact (List.getElem?_eq_some_iff.mp hj).1
      obtain ⟨r1, e1, e2⟩ := hget j hjl
      simp only at hj
      rw [hj] at e1
      simp only [Option.some.injEq] at e1
      rw [e1, e2]
      exact hpts _ (List.getElem_mem _)
  rw [← hrows] at hgoal
  exact hgoal

theorem take_length {sigs : List (Option Bytes)} {m : Nat} (h : m ≤ (sigs.filterMap id).length) : ((sigs.filterMap id).take m).length = m := by
  rw [List.length_take]; omega

theorem isHeader_pushData (d : Bytes) (h : d.length < 65536) : ∃ hdr, pushData d = hdr ++ d ∧ IsHeader hdr d.length := by
  unfold pushData
  split
  · exact ⟨[_], rfl, Or.inl ⟨rfl, by omega⟩⟩
  · split
    · exact ⟨[_, _], rfl, Or.inr (Or.inl ⟨rfl, by omega⟩)⟩
    · exact ⟨_, rfl, Or.inr (Or.inr ⟨rfl, h⟩)⟩

theorem newTxHash_multi {H : Hashes} {d lock : Bytes} {m : Nat} {keys : List Bytes} {st : UInt8} {P : AddressPrefix} {th : TxHash} (h1 : 1 ≤ m)
    (h2 : m ≤ keys.length) (h3 : keys.length ≤ 15) (hk : ∀ k ∈ keys, k.length = 33)
    (h : newTxHash H d lock (multisigScript m keys) .multi st P = .ok th) :
    th.nRequired = UInt8.ofNat m ∧ th.multi = keys.map (fun k => ⟨Hex.encode k, st, ⟨none, none⟩⟩) := by
  have hm : (UInt8.ofNat m).toNat = m := u8_len (by omega)
  have hd := (C27_roundtrip_partial (UInt8.ofNat m) keys (by omega) (by omega) h3 hk).2
  rw [hm] at hd
  unfold newTxHash at h
  simp only at h
  rw [hd, Res.bind_ok] at h
  simp only [Res.ok.injEq] at h
  rw [← h]
  exact ⟨rfl, rfl⟩

/-- The empty record for an input that is unlocked in this way: one place for signature and key, or one for each key of the script. -/
def Shape : Unlocking → TxHash → Prop
  | .one _ _ _, th => th.nRequired = 0 ∧ ∃ a st, th.normal = some ⟨a, st, ⟨none, none⟩⟩
  | .multi _ r, th | .witnessMulti _ r, th => ∀ m keys, 1 ≤ m → m ≤ keys.length → keys.length ≤ 15 → (∀ k ∈ keys, k.length = 33) →
      r = multisigScript m keys → th.nRequired = UInt8.ofNat m ∧ ∃ st, th.multi = keys.map (fun k => ⟨Hex.encode k, st, ⟨none, none⟩⟩)

/-- The kind of input. -/
def KindOf : Unlocking → Bytes → InType → Prop
  | .one _ _ _, _, ty => ty = .p2pkh ∨ ty = .p2wpkh ∨ ty = .bech32
  | .multi _ r, redeem, ty | .witnessMulti _ r, redeem, ty => ty = .multi ∧ redeem = r

/-- What `checkScriptType` says about the unlock data. -/
theorem check_fills {seg : Bool} {u : TxUnlock} {h : TxHash} {x : Unlocking} (hf : Fills sty seg u h x) :
    ∃ lock redeem ty, checkScriptType u.lockScript u.redeemScript = .ok (lock, redeem, ty) ∧ KindOf x redeem ty := by
  cases hf with
  | one so hseg =>
    rename_i o sig pub der
    obtain ⟨ok, hlock, hred, -, -, -, -⟩ := so
    cases o with
    | keyHash k =>
      have hred : u.redeemScript = [] := hred
      rw [hred]
      exact ⟨_, _, _, check_p2pkh hlock ok, Or.inl rfl⟩
    | nested g k => exact ⟨_, _, _, check_p2wpkh hlock ok.1 hred ok.2, Or.inr (Or.inl rfl)⟩
    | native k =>
      have hred : u.redeemScript = [] := hred
      rw [hred]
      exact ⟨_, _, _, check_bech32 hlock ok, Or.inr (Or.inr rfl)⟩
  | multi sm hseg =>
    obtain ⟨lock, hck⟩ := checkMulti sm
    exact ⟨lock, _, _, hck, rfl, rfl⟩
  | witnessMulti sm hseg =>
    obtain ⟨lock, hck⟩ := checkMulti sm
    exact ⟨lock, _, _, hck, rfl, rfl⟩

/-- What is read from an input verifies. -/
theorem attach_shape {C : Curve} {seg : Bool} {sha : Bytes → Bytes} {e : Entry} {th : TxHash} (i : RawIn)
    (hf : Fills sty seg e.unlock e.hash e.expect) (hr : Readable e.expect) (hsh : Shape e.expect th) {d : Bytes} (hd : Hex.decode th.hash = .ok d)
    (hh : th.hash = e.hash.hash) (hv : ValidRecord C e.hash) :
    ∃ th', attach (readIn sha i e.expect) th = .ok (some th') ∧ verifyOne C th' = .ok true := by
  obtain ⟨u, h, x⟩ := e
  simp only at hf hr hsh hh hv ⊢
  cases hf with
  | one so hseg =>
    rename_i o sig pub der
    obtain ⟨ok, hlock, hred, -, ⟨a0, hfill⟩, hsig, hpub⟩ := so
    have hval := hv.one _ sig pub hfill rfl
    obtain ⟨hn, a, st, hnorm⟩ := hsh
    refine attach_one (der := der) ?_ ?_ hsig hpub hn hnorm hd hh hval
    · cases o with
      | keyHash k => exact Or.inl rfl
      | nested g k => exact Or.inr (Or.inl rfl)
      | native k => exact Or.inr (Or.inr rfl)
    · cases o <;> rfl
  | multi sm hseg =>
    rename_i m keys sigs ders
    obtain ⟨hn, st, hmul⟩ := hsh m keys sm.pos sm.le sm.few sm.keysLen rfl
    refine attach_multi rfl sm (fun hin => ?_) hn hmul hd hh hv
    have hrl := multisig_length (m := m) sm.keysLen
    have hfew := sm.few
    have hle := sm.le
    have htl := take_length sm.enough
    obtain ⟨hdr, e1, e2⟩ := isHeader_pushData (multisigScript m keys) (by omega)
    obtain ⟨b, hb⟩ : ∃ b, (Unlocking.multi ders (multisigScript m keys)).script sha = b := ⟨_, rfl⟩
    have hbl := script_multi_length (m := m) sm.dersOk (by omega) sm.keysLen sm.few sha
    have hbe : b = 0x00 :: ((ders.map push).flatten ++ (hdr ++ multisigScript m keys)) := by rw [← hb, ← e1]; rfl
    show decodeMulti (if ((Unlocking.multi ders (multisigScript m keys)).script sha).length < 253 then _ else _) = _
    rw [hb] at hbl ⊢
    by_cases hl : b.length < 253
    · rw [if_pos hl]
      exact decodeMulti_ok (pre := []) sm.pos sm.le sm.few sm.keysLen sm.dersOk hin htl e2 hbe (Or.inl rfl)
    · rw [if_neg hl]
      exact decodeMulti_ok (pre := 0xfd :: leBytes 2 b.length) sm.pos sm.le sm.few sm.keysLen sm.dersOk hin htl e2 hbe (Or.inr ⟨rfl, hbl⟩)
  | witnessMulti sm hseg =>
    rename_i m keys sigs ders
    obtain ⟨hn, st, hmul⟩ := hsh m keys sm.pos sm.le sm.few sm.keysLen rfl
    refine attach_multi rfl sm (fun hin => ?_) hn hmul hd hh hv
    have hr' : (multisigScript m keys).length < 256 := hr
    exact decodeMulti_ok (pre := []) (hdr := [UInt8.ofNat (multisigScript m keys).length]) sm.pos sm.le sm.few sm.keysLen sm.dersOk hin
      (take_length sm.enough) (Or.inl ⟨rfl, hr'⟩) rfl (Or.inl rfl)

theorem attach_fills {C : Curve} {H : Hashes} {P : AddressPrefix} {seg : Bool} {sha : Bytes → Bytes} {t : Tx} {k : Nat} {e : Entry} {th : TxHash} (i : RawIn)
    (hf : Fills sty seg e.unlock e.hash e.expect) (hr : Readable e.expect) (hth : hashForSig H seg P t k e.unlock = .ok th) (hh : th.hash = e.hash.hash)
    (hv : ValidRecord C e.hash) : ∃ th', attach (readIn sha i e.expect) th = .ok (some th') ∧ verifyOne C th' = .ok true := by
  obtain ⟨lock, redeem, ty, hck, hty⟩ := check_fills hf
  obtain ⟨d, hd, hnew⟩ := hashForSig_parts hck hth
  refine attach_shape i hf hr ?_ hd hh hv
  cases hx : e.expect with
  | one o der pub =>
    rw [hx] at hty
    obtain ⟨h1, a, h2⟩ := newTxHash_one hty hnew
    exact ⟨h1, a, _, h2⟩
  | multi ders r =>
    rw [hx] at hty
    obtain ⟨rfl, rfl⟩ := hty
    intro m keys a1 a2 a3 a4 a5
    rw [a5] at hnew
    obtain ⟨h1, h2⟩ := newTxHash_multi a1 a2 a3 a4 hnew
    exact ⟨h1, _, h2⟩
  | witnessMulti ders r =>
    rw [hx] at hty
    obtain ⟨rfl, rfl⟩ := hty
    intro m keys a1 a2 a3 a4 a5
    rw [a5] at hnew
    obtain ⟨h1, h2⟩ := newTxHash_multi a1 a2 a3 a4 hnew
    exact ⟨h1, _, h2⟩

theorem attachAll_fills {C : Curve} {sha : Bytes → Bytes} : ∀ (ins : List RawIn) (l : List Entry) (hs : List TxHash), l.length = ins.length →
    hs.length = l.length → (∀ (j : Nat) (i : RawIn) e th, ins[j]? = some i → l[j]? = some e → hs[j]? = some th →
      ∃ th', attach (readIn sha i e.expect) th = .ok (some th') ∧ verifyOne C th' = .ok true) →
    ∃ hs', attachAll (List.zipWith (readIn sha) ins (l.map Entry.expect)) hs = .ok (some hs') ∧ ∀ h ∈ hs', verifyOne C h = .ok true
  | [], [], hs, _, _, _ => ⟨[], by simp [attachAll], by simp⟩
  | [], _ :: _, _, h, _, _ => by simp at h
  | _ :: _, [], _, h, _, _ => by simp at h
  | _ :: _, _ :: _, [], _, h, _ => by simp at h
  | i :: ins, e :: l, th :: hs, h1, h2, hall => by
    obtain ⟨th', a1, a2⟩ := hall 0 i e th rfl rfl rfl
    obtain ⟨hs', b1, b2⟩ := attachAll_fills ins l hs (by simpa using h1) (by simpa using h2) (fun j x y z hx hy hz =>
      hall (j + 1) x y z (by simpa using hx) (by simpa using hy) (by simpa using hz))
    refine ⟨th' :: hs', ?_, ?_⟩
    · simp only [List.map_cons, List.zipWith_cons_cons]
      rw [attachAll, a1, Res.bind_ok]
      simp only
      rw [b1, Res.bind_ok]
    · intro h hh
      rcases List.mem_cons.mp hh with rfl | hh
      · exact a2
      · exact b2 h hh

end Btc

/-- C63, for all kinds of inputs: for every unsigned transaction, in which each input spends a P2PKH output, a P2WPKH output nested in P2SH or native, a
P2SH multi-signature output (without the segregated witness flag) or a P2SH-P2WSH multi-signature output (with it), if the messages `hs` come from
`CreateRawTransactionHashForSig` and the records hold valid signatures for them, at least as many as required, then
`InsertSignatureIntoEmptyTransaction` succeeds and `VerifyRawTransaction` accepts its result. Missing: signatures outside the range of
`C24_roundtrip_partial`, unlocking scripts for multi-signature outputs of at most 108 bytes (one key and a signature whose two
numbers have at most 61 bytes, or two keys and an even shorter signature) and witnesses with
eight keys or more, all of which are refused. -/
theorem C63_all_inputs_partial (H : Hashes) (C : Curve) (P : AddressPrefix) (t : RawTx) (hu : Unsigned t) (l : List Entry) (segwitOn : Bool)
    (hs : List TxHash) (hc : createHashes H (Hex.encode t.ser) (l.map Entry.unlock) segwitOn P = .ok hs)
    (hhash : l.map (fun e => e.hash.hash) = hs.map TxHash.hash)
    (hf : ∀ e ∈ l, Fills 1 segwitOn e.unlock e.hash e.expect) (hr : ∀ e ∈ l, Readable e.expect) (hv : ∀ e ∈ l, ValidRecord C e.hash) :
    ∃ signed, insertSignatures H (Hex.encode t.ser) (l.map Entry.hash) (l.map Entry.unlock) segwitOn = .ok signed ∧
      verifyRaw H C signed (l.map Entry.unlock) segwitOn P = .ok true := by
  obtain ⟨hl1, hl2, hget⟩ := createHashes_get hu hc
  have hl : l.length = t.ins.length := by simpa using hl1
  have h32 : ∀ b, (H.hash .sha256 b).length = 32 := H.size .sha256
  refine ⟨_, insert_fills H t hu l hl segwitOn hf, ?_⟩
  have hh : hashesForSig H segwitOn P (ofRaw t) (l.map Entry.unlock) = .ok hs := by
    unfold createHashes at hc
    rw [Hex.decode_encode, Res.bind_ok, decode_unsigned hu, Res.bind_ok] at hc
    exact hc
  obtain ⟨hs', a1, a2⟩ := attachAll_fills (C := C) (sha := H.hash .sha256) t.ins l hs hl (by simpa using hl2) (by
    intro j i e th hi he hth
    obtain ⟨th2, e1, e2⟩ := hget j e.unlock (by simp [he])
    rw [hth] at e1
    simp only [Option.some.injEq] at e1
    subst e1
    have he' := List.mem_of_getElem? he
    refine attach_fills i (hf e he') (hr e he') e2 ?_ (hv e he')
    have := congrArg (fun l => l[j]?) hhash
    simp only [List.getElem?_map, he, hth, Option.map_some, Option.some.injEq] at this
    exact this.symm)
  unfold verifyRaw
  rw [Hex.decode_encode]
  simp only [decodeTx_fills h32 hu l hl hf hr]
  rw [if_neg (by simp [readTx, hl]), hashes_signed hl, hh]
  simp only
  rw [show (readTx (H.hash .sha256) t l).vins = List.zipWith (readIn (H.hash .sha256)) t.ins (l.map Entry.expect) from rfl, a1, Res.bind_ok]
  exact verifyAll_true hs' a2

namespace Btc

theorem decodeSigPub_multi {l ders rest : Bytes} {d : Bytes} (hd : IsSig sty l d) (hr : rest = 0x00 :: (push d ++ ders)) :
    decodeSigPub rest = .err := by
  obtain ⟨R, S, lR, lS, pR, pS, _, _, rfl⟩ := isSig_der hd
  have hlen : (derSig R S ++ [sty]).length = R.length + S.length + 7 := by simp [derSig]; omega
  have hr' : rest = 0x00 :: UInt8.ofNat (R.length + S.length + 7) :: 0x30 :: UInt8.ofNat (R.length + S.length + 4) ::
      (0x02 :: UInt8.ofNat R.length :: (R ++ (0x02 :: UInt8.ofNat S.length :: (S ++ (sty :: ders))))) := by
    rw [hr, push, hlen]
    simp only [derSig]
    rw [show ([0x02, UInt8.ofNat R.length] ++ R ++ [0x02, UInt8.ofNat S.length] ++ S).length = R.length + S.length + 4 by simp; omega]
    simp
  have hne : UInt8.ofNat (R.length + S.length + 4) ≠ 0x02 := u8_ofNat_ne (by omega) (by simp)
  have hrs : readSig rest rest.length = .err := by
    rw [hr']
    generalize (0x02 :: UInt8.ofNat R.length :: (R ++ (0x02 :: UInt8.ofNat S.length :: (S ++ (sty :: ders))))) = tl
    unfold readSig
    have e1 : at' (0x00 :: UInt8.ofNat (R.length + S.length + 7) :: 0x30 :: UInt8.ofNat (R.length + S.length + 4) :: tl)
      (0x00 :: UInt8.ofNat (R.length + S.length + 7) :: 0x30 :: UInt8.ofNat (R.length + S.length + 4) :: tl).length 1 =
      .ok (UInt8.ofNat (R.length + S.length + 7)) := by simp [at', index]
    have e2 : at' (0x00 :: UInt8.ofNat (R.length + S.length + 7) :: 0x30 :: UInt8.ofNat (R.length + S.length + 4) :: tl)
      (0x00 :: UInt8.ofNat (R.length + S.length + 7) :: 0x30 :: UInt8.ofNat (R.length + S.length + 4) :: tl).length 2 = .ok 0x30 := by
      simp [at', index]
    have e3 : at' (0x00 :: UInt8.ofNat (R.length + S.length + 7) :: 0x30 :: UInt8.ofNat (R.length + S.length + 4) :: tl)
      (0x00 :: UInt8.ofNat (R.length + S.length + 7) :: 0x30 :: UInt8.ofNat (R.length + S.length + 4) :: tl).length 3 =
      .ok (UInt8.ofNat (R.length + S.length + 4)) := by simp [at', index]
    rw [e1, e2, e3]
    simp only [Res.bind_ok]
    rw [if_pos hne]
    split <;> rfl
  have h0 : rest.length ≠ 0 := by rw [hr]; simp
  have i0 : index rest 0 = .ok 0x00 := by rw [hr]; rfl
  unfold decodeSigPub
  simp only
  rw [if_neg h0, i0, hrs]
  rfl

end Btc

/-- C63 is false of short multi-signature scripts: an unlocking script of at most 108 bytes is taken for a signature and a key, and
`VerifyRawTransaction` refuses what `InsertSignatureIntoEmptyTransaction` returned, whatever the signatures are worth. (One input.) -/
theorem C63_short_multisig_violated (H : Hashes) (t : RawTx) (hu : Unsigned t) (h1 : t.ins.length = 1) (u : TxUnlock) (h : TxHash) (m : Nat)
    (keys : List Bytes) (sigs : List (Option Bytes)) (ders : List Bytes) (hf : SignedMulti 1 u h m keys sigs ders)
    (hshort : ((Unlocking.multi ders (multisigScript m keys)).script (H.hash .sha256)).length ≤ 0x6c) :
    ∃ signed, insertSignatures H (Hex.encode t.ser) [h] [u] false = .ok signed ∧
      ∀ C P, verifyRaw H C signed [u] false P ≠ .ok true := by
  obtain ⟨i, hi⟩ := List.length_eq_one_iff.mp h1
  have hfill : ∀ e ∈ [(⟨u, h, .multi ders (multisigScript m keys)⟩ : Entry)], Fills 1 false e.unlock e.hash e.expect := by
    intro e he
    simp only [List.mem_cons, List.not_mem_nil, or_false] at he
    subst he
    exact Fills.multi hf rfl
  refine ⟨_, insert_fills H t hu [⟨u, h, .multi ders (multisigScript m keys)⟩] (by simp [h1]) false hfill, ?_⟩
  intro C P
  obtain ⟨b, hb⟩ : ∃ b, (Unlocking.multi ders (multisigScript m keys)).script (H.hash .sha256) = b := ⟨_, rfl⟩
  rw [hb] at hshort
  obtain ⟨d, ds, s, hds, hs⟩ : ∃ d ds s, ders = d :: ds ∧ IsSig 1 s d := by
    have hd := hf.dersOk
    have hp := hf.pos
    have he := hf.enough
    cases ders with
    | nil =>
      have := (List.forall₂_iff_get.mp hd).1
      rw [List.length_take, List.length_nil] at this
      omega
    | cons d ds =>
      obtain ⟨s, l, hs, _, _⟩ := List.forall₂_cons_right_iff.mp hd
      exact ⟨d, ds, s, rfl, hs⟩
  have hbe : b = 0x00 :: (push d ++ ((ds.map push).flatten ++ pushData (multisigScript m keys))) := by
    rw [← hb, hds]; simp [Unlocking.script]
  have hbl : 0x23 < b.length := by
    have := multisig_length (m := m) hf.keysLen
    have hp := hf.pos
    have hle := hf.le
    have h4 : (multisigScript m keys).length < (pushData (multisigScript m keys)).length := by
      unfold pushData
      split
      · simp
      · split
        · simp
        · simp
    rw [hbe]
    simp only [List.length_cons, List.length_append]
    omega
  -- the transaction with the script as a signature and key
  let t' : Tx := { ofRaw t with vins := [{ baseIn i with inType := .p2pkh, scriptSig := b }] }
  have hmem : i ∈ t.ins := by rw [hi]; simp
  have hgood : GoodTx false t' := by
    have g := good_ofRaw hu false
    refine ⟨g.version, g.lockTime, by simp [t'], by simp [t'], g.outsPos, g.outsLe, ?_, g.outs⟩
    intro j hj
    simp only [t', List.mem_cons, List.not_mem_nil, or_false] at hj
    subst hj
    exact ⟨(hu.ins i hmem).1, by simp [baseIn], by simp [baseIn], Or.inr (Or.inl ⟨rfl, rfl, rfl, by simp only; omega, hshort, by simp only; omega,
      by simp only; omega⟩)⟩
  have hbytes : unlockedBytes (H.hash .sha256) t [⟨u, h, .multi ders (multisigScript m keys)⟩] = leBytes 4 t.version ++ [0x01] ++
      (i.prev ++ leBytes 4 i.index ++ push b ++ leBytes 4 i.sequence) ++ [UInt8.ofNat t.outs.length] ++ (t.outs.map RawOut.ser).flatten ++
      leBytes 4 t.lockTime := by
    have hv : varBytes b = push b := varBytes_push _ (by omega)
    simp [unlockedBytes, Unlocking.stack, hi, RawTx.withScripts, hb, RawIn.ser, RawIn.outpoint, hv, compactSize_small hu.outsLt,
      compactSize_small (show 1 < 253 by decide)]
  have henc : encodeTx false t' = .ok (unlockedBytes (H.hash .sha256) t [⟨u, h, .multi ders (multisigScript m keys)⟩]) := by
    have houts : ((ofRaw t).vouts.map (fun o => o.amount ++ [UInt8.ofNat o.lockScript.length] ++ o.lockScript)).flatten =
        (t.outs.map RawOut.ser).flatten := by
      simp only [ofRaw, List.map_map]
      congr 1
      apply List.map_congr_left
      intro o ho
      simp only [Function.comp, RawOut.ser, varBytes, compactSize_small (hu.outs o ho).2.2, List.append_assoc]
    rw [encodeTx_good hgood, hbytes]
    show Res.ok (leBytes 4 t.version ++ [] ++ [0x01] ++ [i.prev ++ leBytes 4 i.index ++ push b ++ leBytes 4 i.sequence].flatten ++
      [UInt8.ofNat (ofRaw t).vouts.length] ++
      ((ofRaw t).vouts.map (fun o => o.amount ++ [UInt8.ofNat o.lockScript.length] ++ o.lockScript)).flatten ++ [] ++ leBytes 4 t.lockTime) = _
    rw [houts]
    simp [ofRaw]
  have hdec : ∀ spare, decodeTx spare false (unlockedBytes (H.hash .sha256) t [⟨u, h, .multi ders (multisigScript m keys)⟩]) = .ok t' := by
    intro spare
    obtain ⟨b', hb', hd'⟩ := decodeTx_good hgood spare
    rw [henc, Res.ok.injEq] at hb'
    rw [hb']; exact hd'
  have hatt : ∀ th, attach { baseIn i with inType := .p2pkh, scriptSig := b } th = .ok none := by
    intro th
    unfold attach
    simp only [decodeSigPub_multi hs hbe]
  unfold verifyRaw
  rw [Hex.decode_encode]
  simp only [hdec]
  rw [if_neg (by simp [t'])]
  cases hashesForSig H false P (cloneEmpty t') [u] with
  | err => simp
  | panic => simp
  | ok hs =>
    simp only [t']
    cases hs with
    | nil => simp [attachAll]
    | cons th hs =>
      rw [attachAll, hatt]
      simp

/-- C63 is false of witnesses for eight keys or more: the length of the script does not fit its byte, and `VerifyRawTransaction` refuses what
`InsertSignatureIntoEmptyTransaction` returned, whatever the signatures are worth. (One input.) -/
theorem C63_witness_keys_violated (H : Hashes) (t : RawTx) (hu : Unsigned t) (h1 : t.ins.length = 1) (u : TxUnlock) (h : TxHash) (m : Nat)
    (keys : List Bytes) (sigs : List (Option Bytes)) (ders : List Bytes) (hf : SignedMulti 1 u h m keys sigs ders) (h8 : 8 ≤ keys.length) :
    ∃ signed, insertSignatures H (Hex.encode t.ser) [h] [u] true = .ok signed ∧ ∀ C P, verifyRaw H C signed [u] true P ≠ .ok true := by
  obtain ⟨i, hi⟩ := List.length_eq_one_iff.mp h1
  have hfill : ∀ e ∈ [(⟨u, h, .witnessMulti ders (multisigScript m keys)⟩ : Entry)], Fills 1 true e.unlock e.hash e.expect := by
    intro e he
    simp only [List.mem_cons, List.not_mem_nil, or_false] at he
    subst he
    exact Fills.witnessMulti hf rfl
  refine ⟨_, insert_fills H t hu [⟨u, h, .witnessMulti ders (multisigScript m keys)⟩] (by simp [h1]) true hfill, ?_⟩
  intro C P
  have h32 : ∀ b, (H.hash .sha256 b).length = 32 := H.size .sha256
  have hpos := hf.pos
  have hle := hf.le
  have hfew := hf.few
  have hrl := multisig_length (m := m) hf.keysLen
  have hmem : i ∈ t.ins := by rw [hi]; simp
  have hsigs : ∀ s ∈ ders, ∃ t, s = 0x30 :: t ∧ s.length < 256 := by
    intro d hd
    obtain ⟨k, hk, hkd⟩ := List.mem_iff_getElem.mp hd
    obtain ⟨hlen, hall⟩ := List.forall₂_iff_get.mp hf.dersOk
    have hs := hall k (by rw [hlen]; exact hk) hk
    simp only [List.get_eq_getElem, hkd] at hs
    have := (isSig_length hs).1
    obtain ⟨R, S, _, _, _, _, _, _, rfl⟩ := isSig_der hs
    exact ⟨_, rfl, by omega⟩
  have hlen : ders.length ≤ ((ders.map push).flatten).length := by
    clear hsigs hfill hf
    induction ders with
    | nil => simp
    | cons s l ih => simp [push] at ih ⊢; omega
  have hr0 : ∃ x tl, multisigScript m keys = x :: tl ∧ x ≠ 0x30 := ⟨UInt8.ofNat (0x50 + m), _, rfl, u8_ofNat_ne (by omega) (by simp; omega)⟩
  have hdec : ∀ spare, ∀ t', decodeTx spare true (unlockedBytes (H.hash .sha256) t [⟨u, h, .witnessMulti ders (multisigScript m keys)⟩]) ≠ .ok t' := by
    intro spare t' hd
    have hbytes : unlockedBytes (H.hash .sha256) t [⟨u, h, .witnessMulti ders (multisigScript m keys)⟩] = leBytes 4 2 ++ (0x00 :: 0x01 :: (0x01 ::
        (RawIn.ser { i with script := (Unlocking.witnessMulti ders (multisigScript m keys)).script (H.hash .sha256) } ++
        (UInt8.ofNat t.outs.length :: ((t.outs.map RawOut.ser).flatten ++
        (Unlocking.count (.witnessMulti ders (multisigScript m keys)) ++ leBytes 4 t.lockTime)))))) := by
      simp [unlockedBytes, Unlocking.stack, hi, RawTx.withScripts, compactSize_small hu.outsLt,
        compactSize_small (show 1 < 253 by decide), hu.version]
    have houts : (t.outs.map RawOut.ser).flatten =
        ((ofRaw t).vouts.map (fun o => o.amount ++ [UInt8.ofNat o.lockScript.length] ++ o.lockScript)).flatten := by
      simp only [ofRaw, List.map_map]
      congr 1
      apply List.map_congr_left
      intro o ho
      simp only [Function.comp, RawOut.ser, varBytes, compactSize_small (hu.outs o ho).2.2, List.append_assoc]
    have ho1 := hu.outsPos
    have ho2 := hu.outsLt
    rw [hbytes] at hd
    unfold decodeTx at hd
    rw [takeN_append _ _ (by simp), Res.bind_ok] at hd
    simp only at hd
    rw [if_neg (by decide), if_neg (by simp)] at hd
    simp only [ne_eq, not_true_eq_false, if_false] at hd
    unfold decodeBody at hd
    simp only [take1, Res.bind_ok] at hd
    rw [if_neg (by decide), show (0x01 : UInt8).toNat = 1 from rfl, decodeIns,
      decodeIn_fills h32 (Fills.witnessMulti hf rfl) (fun _ => rfl) (fun _ => rfl) (by simp [Unlocking.stack]) i (hu.ins i hmem).1, Res.bind_ok] at hd
    simp only [decodeIns, Res.bind_ok] at hd
    rw [if_neg (u8_ofNat_ne0 (by omega) (by omega)), u8_len (by omega), houts, show t.outs.length = (ofRaw t).vouts.length by simp [ofRaw],
      decodeOuts_good _ (good_ofRaw hu true).outs, Res.bind_ok] at hd
    simp only [if_true] at hd
    -- the witness
    obtain ⟨⟨ins, rest⟩, hw, hd⟩ := Res.bind_eq_ok.mp hd
    obtain ⟨⟨lt, rest'⟩, hlt, hd⟩ := Res.bind_eq_ok.mp hd
    simp only at hd
    have hrest : 8 ≤ rest.length := by
      rw [decodeWitnesses] at hw
      obtain ⟨⟨i', r⟩, hw1, hw⟩ := Res.bind_eq_ok.mp hw
      simp only [decodeWitnesses, Res.bind_ok, Res.ok.injEq, Prod.mk.injEq] at hw
      obtain ⟨-, rfl⟩ := hw
      unfold decodeWitness at hw1
      simp only [Unlocking.count, List.cons_append, take1, Res.bind_ok, bareIn] at hw1
      rw [if_neg (by simp), if_neg (by simp)] at hw1
      obtain ⟨⟨s, r2⟩, hw2, hw1⟩ := Res.bind_eq_ok.mp hw1
      simp only [Res.ok.injEq, Prod.mk.injEq] at hw1
      obtain ⟨-, rfl⟩ := hw1
      unfold decodeWitnessMulti at hw2
      obtain ⟨x, tl, hx, hne⟩ := hr0
      simp only at hw2
      rw [if_neg (by simp), copySigs_good (multisigScript m keys) (leBytes 4 t.lockTime) x tl hx hne ders _ _
        (by simp only [List.length_append]; omega) hsigs] at hw2
      simp only [push, List.cons_append] at hw2
      split at hw2
      · simp at hw2
      split at hw2
      · simp at hw2
      simp only [Res.ok.injEq, Prod.mk.injEq] at hw2
      rw [← hw2.2]
      have : (UInt8.ofNat (multisigScript m keys).length).toNat < 256 := UInt8.toNat_lt _
      simp only [List.length_drop, List.length_append, leBytes_length]
      omega
    unfold takeN at hlt
    rw [if_neg (by show ¬ rest.length < 4; omega)] at hlt
    simp only [Res.ok.injEq, Prod.mk.injEq] at hlt
    rw [if_pos] at hd
    · simp at hd
    · intro hc
      rw [← hlt.2] at hc
      have := congrArg List.length hc
      simp only [List.length_drop, List.length_nil] at this
      omega
  unfold verifyRaw
  rw [Hex.decode_encode]
  simp only
  cases hd : decodeTx (hexSpare (unlockedBytes (H.hash .sha256) t [⟨u, h, .witnessMulti ders (multisigScript m keys)⟩])) true
      (unlockedBytes (H.hash .sha256) t [⟨u, h, .witnessMulti ders (multisigScript m keys)⟩]) with
  | ok t' => exact absurd hd (hdec _ t')
  | err => simp
  | panic => simp

/-! ### The hypotheses can be met -/

namespace Btc

/-- A curve on which all signatures are valid. -/
def anyCurve : Curve := ⟨fun k => 4 :: k, fun _ _ _ => true⟩

theorem any_valid (hash pub : Bytes) : Valid anyCurve hash sig11 pub :=
  ⟨by unfold InRange; exact Or.inr (by decide +kernel), by simp [anyCurve], fun _ _ => rfl⟩

theorem one_valid (msg : Bytes) : ValidRecord anyCurve (oneRecord msg) := by
  refine ⟨?_, by simp [oneRecord], by simp [oneRecord]⟩
  intro n sig pub hn hs
  simp only [oneRecord, Option.some.injEq] at hn
  subst hn
  simp only [SigPub.mk.injEq, Option.some.injEq] at hs
  rw [← hs.1]
  exact any_valid _ _

theorem multi_valid (msg : Bytes) (m : Nat) (keys : List Bytes) (sigs : List (Option Bytes)) (hs : ∀ s ∈ sigs.filterMap id, s = sig11) :
    ValidRecord anyCurve (multiRecord msg m keys sigs) := by
  refine ⟨by simp [multiRecord], ?_, by simp [anyCurve]⟩
  intro row hrow sig pub he
  obtain ⟨k, hk, rfl⟩ := List.mem_iff_getElem.mp hrow
  simp only [multiRecord, List.getElem_zipWith] at he
  cases hx : sigs[k]'(by simp only [multiRecord, List.length_zipWith] at hk; omega) with
  | none => rw [hx] at he; simp [multiRow] at he
  | some s =>
    rw [hx] at he
    simp only [multiRow, SigPub.mk.injEq, Option.some.injEq] at he
    rw [← he.1, hs s (by rw [List.mem_filterMap]; exact ⟨some s, hx ▸ List.getElem_mem _, rfl⟩)]
    exact any_valid _ _

end Btc

-- four inputs of all kinds meet the hypotheses of `C63_all_inputs_partial`, with the messages that `CreateRawTransactionHashForSig` gives
example : ∃ a b c d signed, insertSignatures toyHashes (Hex.encode (demoTxN 4).ser) ((fourEntries a b c d).map Entry.hash)
      ((fourEntries a b c d).map Entry.unlock) true = .ok signed ∧
    verifyRaw toyHashes anyCurve signed ((fourEntries a b c d).map Entry.unlock) true btcMainnet = .ok true := by
  have hu : ∀ a b c d, (fourEntries a b c d).map Entry.unlock = (fourEntries [] [] [] []).map Entry.unlock := fun _ _ _ _ => rfl
  have hc : (createHashes toyHashes (Hex.encode (demoTxN 4).ser) ((fourEntries [] [] [] []).map Entry.unlock) true btcMainnet).isOk = true := by
    decide +kernel
  cases hc' : createHashes toyHashes (Hex.encode (demoTxN 4).ser) ((fourEntries [] [] [] []).map Entry.unlock) true btcMainnet with
  | err => rw [hc'] at hc; simp [Res.isOk] at hc
  | panic => rw [hc'] at hc; simp [Res.isOk] at hc
  | ok hs =>
    have hl := (createHashes_get (demoTxN_unsigned 4 (by decide) (by decide)) hc').2.1
    match hs, hl with
    | [a, b, c, d], _ =>
      refine ⟨a.hash, b.hash, c.hash, d.hash, C63_all_inputs_partial toyHashes anyCurve btcMainnet _
        (demoTxN_unsigned 4 (by decide) (by decide)) _ true _ hc' rfl (four_fills _ _ _ _) ?_ ?_⟩
      · intro e he
        simp only [fourEntries, List.mem_cons, List.not_mem_nil, or_false] at he
        rcases he with rfl | rfl | rfl | rfl
        · trivial
        · trivial
        · trivial
        · show (multisigScript 2 [key0, key1, key2]).length < 256
          decide
      · intro e he
        simp only [fourEntries, List.mem_cons, List.not_mem_nil, or_false] at he
        rcases he with rfl | rfl | rfl | rfl
        · exact one_valid _
        · exact one_valid _
        · exact one_valid _
        · exact multi_valid _ _ _ _ demo_sigs

-- a script for two signatures by three keys is longer than 108 bytes
example : Readable (scriptEntry [] 2 [key0, key1, key2] [some sig11, none, some sig11]).expect := by
  show 0x6c < ((Unlocking.multi (List.replicate 2 der11) (multisigScript 2 [key0, key1, key2])).script id).length
  decide +kernel

-- one short signature for one key meets the hypotheses of `C63_short_multisig_violated`: here its numbers have 30 bytes
example : ∃ signed, insertSignatures toyHashes (Hex.encode (demoTxN 1).ser)
      [multiRecord [] 1 [key0] [some (0 :: 0 :: (List.replicate 30 1 ++ 0 :: 0 :: List.replicate 30 1))]] [multiUnlock 1 [key0]] false =
      .ok signed ∧ ∀ C P, verifyRaw toyHashes C signed [multiUnlock 1 [key0]] false P ≠ .ok true := by
  have h : IsDerInt (List.replicate 30 1) (beNat (0 :: 0 :: List.replicate 30 1)) := by
    refine ⟨by decide +kernel, by simp, ?_, ?_⟩
    · intro x hx
      have : x = 1 := by simpa using hx.symm
      subst this
      decide
    · intro y t h
      have := congrArg List.head? h
      simp at this
  have hd : IsSig 1 (0 :: 0 :: (List.replicate 30 1 ++ 0 :: 0 :: List.replicate 30 1)) (derSig (List.replicate 30 1) (List.replicate 30 1) ++ [1]) :=
    ⟨rfl, by decide +kernel, by decide +kernel, _, _, h, h, rfl⟩
  exact C63_short_multisig_violated _ _ (demoTxN_unsigned 1 (by decide) (by decide)) rfl _ _ 1 [key0] _ _
    (multi_signed hd [] 1 [key0] [some (0 :: 0 :: (List.replicate 30 1 ++ 0 :: 0 :: List.replicate 30 1))] (by decide) (by decide) (by decide)
      (by decide) rfl (by decide) (by intro s hs; simpa using hs))
    (by decide +kernel)

-- two signatures for nine keys meet the hypotheses of `C63_witness_keys_violated`
example : ∃ signed, insertSignatures toyHashes (Hex.encode (demoTxN 1).ser)
      [multiRecord [] 2 (List.replicate 9 key0) (List.replicate 9 (some sig11))] [multiUnlock 2 (List.replicate 9 key0)] true =
      .ok signed ∧ ∀ C P, verifyRaw toyHashes C signed [multiUnlock 2 (List.replicate 9 key0)] true P ≠ .ok true :=
  C63_witness_keys_violated _ _ (demoTxN_unsigned 1 (by decide) (by decide)) rfl _ _ 2 _ _ (List.replicate 2 der11)
    (multi_signed der11_is [] 2 (List.replicate 9 key0) (List.replicate 9 (some sig11)) (by decide) (by decide) (by decide) (by decide) rfl (by decide)
      (by intro s hs; simpa using hs))
    (by decide)

end Verif
