import Verif.Lemmas.SignatureSet
import Verif.Props.BtcSig

/-! Properties C46 to C49, C71, C72: the signing helpers of packages `signatureSet` and `eosSignature`. -/

namespace Verif
open SigSet Spec.Rfc6979

/-- A cryptographically worthless instance of the external operations, used to show that hypotheses can be met: every block is
`b b ... b`, every signature is r = s = `c c ... c`. -/
def toyEc (b c : UInt8) : Ec where
  hmac _ _ := List.replicate 32 b
  hmac_size _ _ := by simp
  preprocess _ := true
  sign _ _ _ := some (List.replicate 64 c)
  sign_size _ _ _ s h := by cases h; rfl
  pub _ := some (List.replicate 64 1)
  pub_size _ s h := by cases h; rfl
  recover _ _ := some (List.replicate 64 1)
  signOn _ _ _ := some (List.replicate 64 c)

/-! ### C47: range checks -/

/-- C47: the two range checks on the first 32 bytes of a string answer exactly "at least the order of secp256k1", the zero check
answers exactly "zero", for every string of at least 32 bytes. -/
theorem C47_range_check (a : Bytes) (h : 32 ≤ a.length) :
    checkOverflow64 a = .ok (decide (q ≤ beNat (a.take 32))) ∧
      checkOverflow32 a = .ok (decide (q ≤ beNat (a.take 32))) ∧
      checkIsZero a = .ok (decide (beNat (a.take 32) = 0)) := by
  rw [q_eq]
  exact ⟨checkOverflow64_eq a h, checkOverflow32_eq a h, checkIsZero_eq a h⟩

example : 32 ≤ (beBytes 32 q).length := by simp

/-- C47 for the signing call: a 32-byte key outside [1, order - 1] is refused whatever the external operations do. -/
theorem C47_key_refused (E : Ec) (key hash : Bytes) (hk : key.length = 32) (hbad : ¬ InRange (beNat key)) :
    ethSignature E key hash = .err := by
  by_cases hh : hash.length = 32
  · rw [ethSignature_eq E (by omega) hh, List.take_of_length_le (by omega), if_neg]
    unfold InRange at hbad
    rwa [q_eq] at hbad
  · unfold ethSignature; rw [if_pos hh]

example : ¬ InRange (beNat (beBytes 32 q)) := by
  rw [beNat_beBytes_of_lt (by decide +kernel)]
  unfold InRange; omega

/-! ### C48: progress and low S of the recoverable signatures -/

/-- C48, nonce of the first round: for a 32-byte key and a 32-byte hash below the order it is the first block of RFC 6979. -/
theorem C48_first_nonce (E : Ec) (key hash : Bytes) (hk : key.length = 32) (hh : hash.length = 32) (hq : beNat hash < q) :
    nonceFunction E hash key 0 = .ok (candidate E.hmac (seed (beNat key) hash) 0) := by
  rw [nonceFunction_eq E hk hh, if_neg (by omega)]
  have e : seed (beNat key) hash = key ++ hash := by
    unfold seed
    rw [List.take_of_length_le (by omega), Nat.mod_eq_of_lt hq]
    nth_rewrite 1 [← hk]
    nth_rewrite 1 [← hh]
    rw [beBytes_beNat, beBytes_beNat]
  rw [e]
  simp

example : (List.replicate 32 (5 : UInt8)).length = 32 ∧ beNat (List.replicate 32 (5 : UInt8)) < q := by decide +kernel

/-- C48, first round succeeds: if the first block is in range and the external signature succeeds, the call returns. -/
theorem C48_first_round (E : Ec) (key hash sig : Bytes) (hk : key.length = 32) (hh : hash.length = 32)
    (hkey : InRange (beNat key)) (hb : InRange (beNat (candidate E.hmac (key ++ hash) 0)))
    (hs : signatureInner E key hash (candidate E.hmac (key ++ hash) 0) = some sig) :
    ethSignature E key hash = .ok sig := by
  unfold InRange at hkey hb
  rw [q_eq] at hkey hb
  rw [ethSignature_eq E (by omega) hh, List.take_of_length_le (by omega), if_pos hkey, signLoop, dif_neg (by omega),
    attempt_eq E hk hh (by omega), if_pos hb]
  simp only [Nat.zero_add, List.replicate_one, List.flatten_cons, List.flatten_nil, List.append_nil, hs]

example : InRange (beNat (List.replicate 32 (5 : UInt8))) ∧
    InRange (beNat (candidate (toyEc 3 3).hmac (List.replicate 32 5 ++ List.replicate 32 5) 0)) ∧
    (signatureInner (toyEc 3 3) (List.replicate 32 5) (List.replicate 32 5) (List.replicate 32 3)).isSome = true := by
  unfold InRange
  exact ⟨by decide +kernel, by decide +kernel, by decide +kernel⟩

/-- The rounds do not use fresh nonces: the nonce of every round is the first block repeated, so its first 32 bytes (the part that
is range-checked) never change. -/
theorem C48_repeated_nonce (E : Ec) (key hash nonce : Bytes) (hk : key.length = 32) (hh : hash.length = 32) (counter : Nat)
    (h : nonceFunction E hash key counter = .ok nonce) :
    nonce = (List.replicate (counter + 1) (candidate E.hmac (key ++ hash) 0)).flatten := by
  rw [nonceFunction_eq E hk hh] at h
  split at h
  · cases h
  · exact (Res.ok.inj h).symm

/-- C48, progress is violated: whenever the first block is out of range, where RFC 6979 goes on to the next block, the call never
returns a signature (after 2^27 - 1 rounds it panics). -/
theorem C48_progress_violated (E : Ec) (key hash : Bytes) (hk : key.length = 32) (hh : hash.length = 32)
    (hkey : InRange (beNat key)) (hb : ¬ InRange (beNat (candidate E.hmac (key ++ hash) 0))) :
    ethSignature E key hash = .panic := by
  unfold InRange at hkey hb
  rw [q_eq] at hkey hb
  rw [ethSignature_eq E (by omega) hh, List.take_of_length_le (by omega), if_pos hkey]
  apply signLoop_panic
  intro c hc
  rw [attempt_eq E hk hh hc, if_neg hb]

/-- An HMAC whose first block is out of range and whose second block is in range: RFC 6979 has a nonce, the call does not. -/
example : ∃ E : Ec, ∃ key hash : Bytes, key.length = 32 ∧ hash.length = 32 ∧ InRange (beNat key) ∧
    ¬ InRange (beNat (candidate E.hmac (key ++ hash) 0)) ∧ InRange (beNat (candidate E.hmac (key ++ hash) 1)) := by
  refine ⟨{ toyEc 0 3 with
      hmac := fun k d => if k.head? = some 0 ∧ d.length = 97 then List.replicate 32 7 else
        if k.head? = some 7 ∧ d.length = 33 then List.replicate 32 9 else
        if k.head? = some 9 then List.replicate 32 5 else
        if d.length = 97 then List.replicate 32 7 else List.replicate 32 0
      hmac_size := by intro k d; split_ifs <;> simp },
    List.replicate 32 1, List.replicate 32 2, rfl, rfl, ?_, ?_, ?_⟩ <;> unfold InRange <;> decide +kernel

/-- The byte encoding of the parity of the last byte of a point. -/
def parity (y : Bytes) : Nat := (y.getD 63 0).toNat % 2

theorem inner_ok (E : Ec) (key hash nonce sig : Bytes) (h : signatureInner E key hash nonce = some sig) :
    ∃ raw y, E.sign key hash nonce = some raw ∧ E.pub nonce = some y ∧
      sig = if beNat (raw.drop 32) > Btc.curveOrder / 2 then
        raw.take 32 ++ copyInto (raw.drop 32) (OwKeychain.padLoop 32 0
          (OwKeychain.bigBytes ((Btc.curveOrder : Int) - beNat (raw.drop 32)).natAbs)) ++ [UInt8.ofNat (1 - parity y)]
        else raw ++ [UInt8.ofNat (parity y)] := by
  unfold signatureInner at h
  split at h
  · cases h
  · split at h
    · rename_i raw y h1 h2
      refine ⟨raw, y, h1, h2, ?_⟩
      have hp : ∀ x : UInt8, (if x % 2 = 1 then (1 : UInt8) else 0) = UInt8.ofNat (x.toNat % 2) := by
        apply Hex.u8_forall; decide +kernel
      have hp2 : ∀ x : UInt8, (if x % 2 = 1 then (1 : UInt8) else 0) ^^^ 1 = UInt8.ofNat (1 - x.toNat % 2) := by
        apply Hex.u8_forall; decide +kernel
      simp only [hp2] at h
      simp only [hp] at h
      unfold parity
      split at h
      · rename_i hgt
        rw [if_pos hgt]; exact (Option.some.inj h).symm
      · rename_i hgt
        rw [if_neg hgt]; exact (Option.some.inj h).symm
    · cases h

/-- C48, low S, restricted: a returned signature has 65 bytes, keeps r, has the smaller of s and n - s, and the last byte is the
parity of the nonce point, flipped exactly when s was replaced, provided n - s is at least 2^240 when it is used. Missing: smaller
replacements, see `C48_low_s_violated`. -/
theorem C48_low_s_partial (E : Ec) (key hash sig : Bytes) (hk : key.length = 32) (hh : hash.length = 32)
    (h : ethSignature E key hash = .ok sig) :
    ∃ nonce raw y, E.sign key hash nonce = some raw ∧ E.pub nonce = some y ∧
      nonce.take 32 = candidate E.hmac (key ++ hash) 0 ∧ InRange (beNat (nonce.take 32)) ∧ sig.take 32 = raw.take 32 ∧
      (beNat (raw.drop 32) ≤ q / 2 → sig = raw ++ [UInt8.ofNat (parity y)]) ∧
      (q / 2 < beNat (raw.drop 32) → beNat (raw.drop 32) < q → 2 ^ 240 ≤ q - beNat (raw.drop 32) →
        sig = raw.take 32 ++ beBytes 32 (q - beNat (raw.drop 32)) ++ [UInt8.ofNat (1 - parity y)]) := by
  rw [ethSignature_eq E (by omega) hh] at h
  split at h
  · obtain ⟨d, hd, ha⟩ := signLoop_ok E key hash sig 0 h
    rw [attempt_eq E hk hh hd] at ha
    split at ha
    · rename_i hr
      obtain ⟨raw, y, h1, h2, rfl⟩ := inner_ok E _ _ _ _ (Res.ok.inj ha)
      have hl := E.sign_size _ _ _ _ h1
      have ht : ((List.replicate (d + 1) (candidate E.hmac (key ++ hash) 0)).flatten).take 32 =
          candidate E.hmac (key ++ hash) 0 := by
        rw [List.replicate_succ, List.flatten_cons, List.take_left' (candidate_length _ _ _)]
      refine ⟨_, raw, y, h1, h2, ht, ?_, ?_, ?_, ?_⟩
      · rw [ht]; unfold InRange; rw [q_eq]; exact hr
      · split
        · rw [List.append_assoc, List.take_left' (by simp; omega)]
        · rw [List.take_append_of_le_length (by omega)]
      · intro hle
        rw [q_eq] at hle
        rw [if_neg (by omega)]
      · rw [q_eq]
        intro hgt hlt h240
        rw [if_pos hgt]
        congr 2
        generalize hv : beNat (raw.drop 32) = v at *
        have e1 : ((Btc.curveOrder : Int) - v).natAbs = Btc.curveOrder - v := by omega
        rw [e1]
        have hup : Btc.curveOrder - v < 256 ^ 32 := by
          have : Btc.curveOrder < 256 ^ 32 := by decide
          exact lt_of_le_of_lt (Nat.sub_le _ _) this
        have l1 := (OwKeychain.bigBytes_length_le (Btc.curveOrder - v) 32).mpr hup
        have l2 : ¬ (OwKeychain.bigBytes (Btc.curveOrder - v)).length ≤ 30 := by
          rw [OwKeychain.bigBytes_length_le, show (256 : Nat) ^ 30 = 2 ^ 240 by norm_num]
          exact not_lt.mpr h240
        have l3 : (OwKeychain.padLoop 32 0 (OwKeychain.bigBytes (Btc.curveOrder - v))).length = 32 := by
          rw [OwKeychain.pad_length _ l1]; omega
        have l4 : (raw.drop 32).length = 32 := by simp; omega
        unfold copyInto
        rw [l3, l4, List.take_of_length_le l3.le, List.drop_of_length_le l4.le, List.append_nil]
        apply beNat_inj
        · rw [l3, beBytes_length]
        · rw [OwKeychain.beNat_padLoop, OwKeychain.beNat_bigBytes, beNat_beBytes_of_lt hup]
    · cases ha
  · cases h

/-- A run whose raw s is above half the order. -/
example : ∃ sig, ethSignature (toyEc 3 0x90) (List.replicate 32 5) (List.replicate 32 6) = .ok sig ∧
    q / 2 < beNat ((List.replicate 64 (0x90 : UInt8)).drop 32) ∧ 2 ^ 240 ≤ q - beNat ((List.replicate 64 (0x90 : UInt8)).drop 32) := by
  obtain ⟨sig, hs⟩ := Option.isSome_iff_exists.mp
    (show (signatureInner (toyEc 3 0x90) (List.replicate 32 5) (List.replicate 32 6) (List.replicate 32 3)).isSome = true by
      decide +kernel)
  exact ⟨sig, C48_first_round _ _ _ _ rfl rfl (by unfold InRange; decide +kernel) (by unfold InRange; decide +kernel) hs,
    by decide +kernel, by decide +kernel⟩

theorem inner_low_s (E : Ec) (key hash nonce sig raw : Bytes) (h : signatureInner E key hash nonce = some sig)
    (hraw : E.sign key hash nonce = some raw) (hs : beNat (raw.drop 32) < q) (hsmall : q - beNat (raw.drop 32) < 2 ^ 240) :
    beNat ((sig.drop 32).take 32) ≠ q - beNat (raw.drop 32) := by
  obtain ⟨raw', y, h1, h2, rfl⟩ := inner_ok E _ _ _ _ h
  rw [hraw] at h1
  obtain rfl := Option.some.inj h1
  have hl := E.sign_size _ _ _ _ hraw
  rw [q_eq] at hs hsmall ⊢
  have l4 : (raw.drop 32).length = 32 := by simp; omega
  generalize raw.drop 32 = R at *
  generalize hv : beNat R = v at *
  have hgt : v > Btc.curveOrder / 2 := by
    have h1 : Btc.curveOrder / 2 + 2 ^ 240 < Btc.curveOrder := by decide +kernel
    clear hv
    generalize Btc.curveOrder / 2 = a at *
    generalize Btc.curveOrder = b at *
    generalize 2 ^ 240 = c at *
    omega
  rw [if_pos hgt]
  have e1 : ((Btc.curveOrder : Int) - v).natAbs = Btc.curveOrder - v := by omega
  rw [e1]
  have l1 := (OwKeychain.bigBytes_length_le (Btc.curveOrder - v) 30).mpr (by
    rw [show (256 : Nat) ^ 30 = 2 ^ 240 by norm_num]
    exact hsmall)
  have l3 := OwKeychain.pad_length (OwKeychain.bigBytes (Btc.curveOrder - v)) (by omega)
  have hval : beNat (OwKeychain.padLoop 32 0 (OwKeychain.bigBytes (Btc.curveOrder - v))) = Btc.curveOrder - v := by
    rw [OwKeychain.beNat_padLoop, OwKeychain.beNat_bigBytes]
  generalize OwKeychain.padLoop 32 0 (OwKeychain.bigBytes (Btc.curveOrder - v)) = P at *
  have hP : P.length ≤ 31 := by omega
  have l5 : (copyInto R P).length = 32 := by
    unfold copyInto; simp; omega
  rw [List.append_assoc, List.drop_left' (by simp; omega), List.take_left' l5]
  unfold copyInto
  rw [List.take_of_length_le (by omega), beNat_append, hval]
  have hpow : 256 ^ 1 ≤ 256 ^ (R.drop P.length).length := Nat.pow_le_pow_right (by norm_num) (by simp; omega)
  have hpos : 0 < Btc.curveOrder - v := Nat.sub_pos_of_lt hs
  have := Nat.mul_le_mul_left (Btc.curveOrder - v) hpow
  generalize Btc.curveOrder - v = w at *
  generalize w * 256 ^ (R.drop P.length).length = z at *
  omega

/-- C48, low S is violated: whenever the raw s is within 2^240 of the order, the s field of the returned signature is not n - s. -/
theorem C48_low_s_violated (E : Ec) (key hash sig : Bytes) (hk : key.length = 32) (hh : hash.length = 32) (h : ethSignature E key hash = .ok sig) :
    ∃ nonce raw, E.sign key hash nonce = some raw ∧ nonce.take 32 = candidate E.hmac (key ++ hash) 0 ∧
      (beNat (raw.drop 32) < q → q - beNat (raw.drop 32) < 2 ^ 240 → beNat ((sig.drop 32).take 32) ≠ q - beNat (raw.drop 32)) := by
  rw [ethSignature_eq E (by omega) hh] at h
  split at h
  · obtain ⟨d, hd, ha⟩ := signLoop_ok E key hash sig 0 h
    rw [attempt_eq E hk hh hd] at ha
    split at ha
    · have hin := Res.ok.inj ha
      obtain ⟨raw, y, h1, -, -⟩ := inner_ok E _ _ _ _ hin
      refine ⟨_, raw, h1, ?_, inner_low_s E _ _ _ _ _ hin h1⟩
      rw [List.replicate_succ, List.flatten_cons, List.take_left' (candidate_length _ _ _)]
    · cases ha
  · cases h

/-- A run whose raw s is five less than the order. -/
example : ∃ E : Ec, ∃ sig, ethSignature E (List.replicate 32 5) (List.replicate 32 6) = .ok sig ∧
    (∀ key hash nonce, E.sign key hash nonce = some (List.replicate 32 1 ++ beBytes 32 (q - 5))) ∧
    beNat ((List.replicate 32 (1 : UInt8) ++ beBytes 32 (q - 5)).drop 32) < q ∧ q - beNat ((List.replicate 32 (1 : UInt8) ++ beBytes 32 (q - 5)).drop 32) < 2 ^ 240 := by
  let E : Ec := { toyEc 3 3 with
    sign := fun _ _ _ => some (List.replicate 32 1 ++ beBytes 32 (q - 5))
    sign_size := by intro p h k s hs; cases hs; decide +kernel }
  obtain ⟨sig, hs⟩ := Option.isSome_iff_exists.mp
    (show (signatureInner E (List.replicate 32 5) (List.replicate 32 6) (List.replicate 32 3)).isSome = true by decide +kernel)
  exact ⟨E, sig, C48_first_round _ _ _ _ rfl rfl (by unfold InRange; decide +kernel) (by unfold InRange; decide +kernel) hs, fun _ _ _ => rfl,
    by decide +kernel, by decide +kernel⟩

/-! ### C49: the registry of signers -/

/-- The signer first registered under a name that agrees with `sym` up to letter case. -/
def FirstRegistered {σ : Type} (up : Bytes → Bytes) (hist : List (Bytes × Option σ)) (sym : Bytes) (r : Option σ) : Prop :=
  (∃ pre name post, hist = pre ++ (name, r) :: post ∧ r.isSome ∧ up name = up sym ∧ ∀ e ∈ pre, up e.1 ≠ up sym) ∨
    (r = none ∧ ∀ e ∈ hist, up e.1 ≠ up sym)

theorem regAll_lookup {σ : Type} (up : Bytes → Bytes) : ∀ (hist : List (Bytes × Option σ)) (reg reg' : Registry σ),
    regAll up reg hist = .ok reg' → ∀ sym,
      (∀ m, getTxSigner up reg sym = some m → getTxSigner up reg' sym = some m) ∧
      (getTxSigner up reg sym = none → FirstRegistered up hist sym (getTxSigner up reg' sym))
  | [], reg, reg', h, sym => by
    obtain rfl := Res.ok.inj h
    exact ⟨fun m hm => hm, fun hn => Or.inr ⟨hn, by simp⟩⟩
  | (n, mo) :: rest, reg, reg', h, sym => by
    unfold regAll at h
    obtain ⟨reg1, h1, h⟩ := Res.bind_eq_ok.mp h
    have ih := regAll_lookup up rest reg1 reg' h sym
    unfold regTxSigner at h1
    split at h1
    · cases h1
    · rename_i m
      split at h1
      · rename_i hin
        obtain rfl := Res.ok.inj h1
        refine ⟨ih.1, fun hn => ?_⟩
        have hne : up n ≠ up sym := by
          intro e
          unfold getTxSigner at hn
          rw [e, hn] at hin; simp at hin
        rcases ih.2 hn with ⟨pre, name, post, rfl, a, b, c⟩ | ⟨a, b⟩
        · exact Or.inl ⟨(n, some m) :: pre, name, post, rfl, a, b, List.forall_mem_cons.mpr ⟨hne, c⟩⟩
        · exact Or.inr ⟨a, List.forall_mem_cons.mpr ⟨hne, b⟩⟩
      · rename_i hin
        obtain rfl := Res.ok.inj h1
        by_cases e : up n = up sym
        · have hg : getTxSigner up ((up n, m) :: reg) sym = some m := by simp [getTxSigner, e]
          have hg' := ih.1 m hg
          refine ⟨fun m' hm' => ?_, fun _ => ?_⟩
          · unfold getTxSigner at hm'
            rw [e, hm'] at hin; simp at hin
          · rw [hg']
            exact Or.inl ⟨[], n, rest, rfl, rfl, e, by simp⟩
        · have hg : getTxSigner up ((up n, m) :: reg) sym = getTxSigner up reg sym := by
            unfold getTxSigner
            rw [List.lookup_cons]
            have : (up sym == up n) = false := by simpa using fun h => e h.symm
            rw [this]
          rw [hg] at ih
          refine ⟨ih.1, fun hn => ?_⟩
          rcases ih.2 hn with ⟨pre, name, post, rfl, a, b, c⟩ | ⟨a, b⟩
          · exact Or.inl ⟨(n, some m) :: pre, name, post, rfl, a, b, List.forall_mem_cons.mpr ⟨e, c⟩⟩
          · exact Or.inr ⟨a, List.forall_mem_cons.mpr ⟨e, b⟩⟩

/-- C49: after any history of registrations that does not panic, looking up a symbol in any letter case gives the signer that was
registered first under that symbol in any letter case, and nothing if there was none. `up` is the upper-casing function. -/
theorem C49_first_wins {σ : Type} (up : Bytes → Bytes) (hist : List (Bytes × Option σ)) (reg : Registry σ)
    (h : regAll up [] hist = .ok reg) (sym : Bytes) : FirstRegistered up hist sym (getTxSigner up reg sym) :=
  (regAll_lookup up hist [] reg h sym).2 rfl

/-- C49: the only history that panics is one that registers a nil signer. -/
theorem C49_nil_panics {σ : Type} (up : Bytes → Bytes) : ∀ (hist : List (Bytes × Option σ)) (reg : Registry σ),
    (regAll up reg hist = .panic ↔ ∃ n, (n, none) ∈ hist) ∧ regAll up reg hist ≠ .err
  | [], reg => by simp [regAll]
  | (n, none) :: rest, reg => by simp [regAll, regTxSigner]
  | (n, some m) :: rest, reg => by
    unfold regAll regTxSigner
    simp only
    split
    · rw [Res.bind_ok]
      have := C49_nil_panics up rest reg
      simpa using this
    · rw [Res.bind_ok]
      have := C49_nil_panics up rest ((up n, m) :: reg)
      simpa using this

/-- C49 for the built-in signers: whatever is registered later, a symbol registered by the package initialisation keeps its signer,
in any letter case. -/
theorem C49_builtin (later : List (Bytes × Option Adapter)) (reg : Registry Adapter)
    (h : regAll asciiUpper [] (initHistory ++ later) = .ok reg) (name : Bytes) (a : Adapter)
    (hin : (name, some a) ∈ initHistory) (sym : Bytes) (hs : asciiUpper sym = name) : getTxSigner asciiUpper reg sym = some a := by
  have hsplit : ∀ (h1 h2 : List (Bytes × Option Adapter)) (r0 r : Registry Adapter), regAll asciiUpper r0 (h1 ++ h2) = .ok r →
      ∃ r1, regAll asciiUpper r0 h1 = .ok r1 ∧ regAll asciiUpper r1 h2 = .ok r := by
    intro h1
    induction h1 with
    | nil => intro h2 r0 r h; exact ⟨r0, rfl, h⟩
    | cons e t ih =>
      intro h2 r0 r h
      rw [List.cons_append] at h
      unfold regAll at h
      obtain ⟨r1, a1, a2⟩ := Res.bind_eq_ok.mp h
      obtain ⟨r2, b1, b2⟩ := ih h2 r1 r a2
      refine ⟨r2, ?_, b2⟩
      unfold regAll
      rw [a1, Res.bind_ok]; exact b1
  obtain ⟨r1, h1, h2⟩ := hsplit _ _ _ _ h
  apply (regAll_lookup asciiUpper later r1 reg h2 sym).1
  have key : (match regAll asciiUpper [] initHistory with
    | .ok r => initHistory.all fun e => decide (r.lookup e.1 = e.2)
    | _ => false) = true := by decide +kernel
  rw [h1] at key
  have := List.all_eq_true.mp key _ hin
  unfold getTxSigner
  rw [hs]
  exact of_decide_eq_true this

example : ∃ reg, regAll asciiUpper [] (initHistory ++ [(asc "eth", some .ripple), (asc "btc", some .ripple)]) = .ok reg ∧
    (asc "ETH", some Adapter.ethereum) ∈ initHistory ∧ asciiUpper (asc "eTh") = asc "ETH" :=
  ⟨_, rfl, by decide +kernel, by decide +kernel⟩

/-! ### C72: dispatch of `SignTxHash` -/

/-- C72: a registered symbol is signed by its signer, and by nothing else; NAS and TRX, when not registered, by the recoverable
signature; the signer does not depend on the curve. -/
theorem C72_dispatch (E : Ec) (up : Bytes → Bytes) (fold : Bytes → Bytes → Bool) (reg : Registry Signer) (sym msg key : Bytes)
    (curve : Nat) :
    (∀ f sig, getTxSigner up reg sym = some f → (signTxHash E up fold reg sym msg key curve = .ok sig ↔ f msg key curve = some sig)) ∧
    (getTxSigner up reg sym = none → fold sym (asc "NAS") = true ∨ fold sym (asc "TRX") = true →
      signTxHash E up fold reg sym msg key curve = ethSignature E key msg) := by
  constructor
  · intro f sig h
    unfold signTxHash
    simp only [h]
    cases f msg key curve <;> simp
  · intro h hf
    unfold signTxHash
    simp only [h]
    rcases hf with hf | hf
    · rw [if_pos hf]
    · by_cases hn : fold sym (asc "NAS") = true
      · rw [if_pos hn]
      · rw [if_neg hn, if_pos hf]

/-- C72, low S, restricted: any other symbol on secp256k1 gets r and the smaller of s and n - s, in 64 bytes when n - s is at least
2^240; on the other curves the external signature is returned unchanged. Missing: smaller n - s, see `C26_width_violated`, which
applies because the normalisation is the same function. -/
theorem C72_low_s_partial (E : Ec) (up : Bytes → Bytes) (fold : Bytes → Bytes → Bool) (reg : Registry Signer) (sym msg key raw : Bytes)
    (curve : Nat) (h : getTxSigner up reg sym = none) (h1 : fold sym (asc "NAS") = false) (h2 : fold sym (asc "TRX") = false)
    (hraw : E.signOn curve key msg = some raw) :
    (curve ≠ secp256k1 → signTxHash E up fold reg sym msg key curve = .ok raw) ∧
    (curve = secp256k1 → raw.length = 64 → beNat (raw.drop 32) < q →
      ∃ sig, signTxHash E up fold reg sym msg key curve = .ok sig ∧ sig.take 32 = raw.take 32 ∧
        beNat (sig.drop 32) = min (beNat (raw.drop 32)) (q - beNat (raw.drop 32)) ∧
        (2 ^ 240 ≤ q - beNat (raw.drop 32) → sig.length = 64)) := by
  rw [q_eq]
  unfold signTxHash
  simp only [h, h1, h2, hraw, Bool.false_eq_true, if_false]
  constructor
  · intro hc; rw [if_neg hc]
  · intro hc hl hs
    rw [if_pos hc, if_neg (by omega)]
    exact ⟨_, rfl, C26_low_s_partial raw hl hs⟩

example : getTxSigner asciiUpper ([] : Registry Signer) (asc "BTC") = none ∧
    (toyEc 3 0x90).signOn secp256k1 (List.replicate 32 5) (List.replicate 32 6) = some (List.replicate 64 0x90) := ⟨rfl, rfl⟩

/-- C72 fails for small n - s: a signature of any other symbol on secp256k1 whose n - s is below 2^240 comes back with fewer than 64 bytes. -/
theorem C72_low_s_violated (E : Ec) (up : Bytes → Bytes) (fold : Bytes → Bytes → Bool) (reg : Registry Signer) (sym msg key raw : Bytes)
    (h : getTxSigner up reg sym = none) (h1 : fold sym (asc "NAS") = false) (h2 : fold sym (asc "TRX") = false)
    (hraw : E.signOn secp256k1 key msg = some raw) (hl : raw.length = 64) (hs : beNat (raw.drop 32) < q) (hsmall : q - beNat (raw.drop 32) < 2 ^ 240) :
    ∃ sig, signTxHash E up fold reg sym msg key secp256k1 = .ok sig ∧ sig.length < 64 := by
  rw [q_eq] at hs hsmall
  unfold signTxHash
  simp only [h, h1, h2, hraw, Bool.false_eq_true, if_false, if_true]
  rw [if_neg (by omega)]
  exact ⟨_, rfl, C26_width_violated raw hl hs hsmall⟩

example : let raw := List.replicate 32 1 ++ beBytes 32 (q - 5)
    ∃ E : Ec, E.signOn secp256k1 (List.replicate 32 5) (List.replicate 32 6) = some raw ∧ raw.length = 64 ∧ beNat (raw.drop 32) < q ∧
      q - beNat (raw.drop 32) < 2 ^ 240 :=
  ⟨{ toyEc 3 0x90 with signOn := fun _ _ _ => some (List.replicate 32 1 ++ beBytes 32 (q - 5)) }, rfl, by decide +kernel, by decide +kernel,
    by decide +kernel⟩

/-! ### C71: EOS nonces -/

/-- C71: the nonce used for attempt `i` of the EOS signature is, as a number, exactly the RFC 6979 nonce for the key and the
attempt's digest: the hash itself for attempt 0, SHA-256 of the hash followed by `i` zero bytes for attempt `i`. In particular the
search returns exactly when RFC 6979 has a nonce. -/
theorem C71_rfc6979_partial (E : Ec) (sha : Bytes → Bytes) (key hash : Bytes) (i : Nat) (k : Nat) :
    (∃ b, generateRandom E sha key hash i = some b ∧ beNat b = k) ↔
      IsNonce E.hmac (seed (beNat key) (if i = 0 then hash else sha (hash ++ List.replicate i 0))) k := by
  have e : (if i = 0 then hash else sha (hash ++ List.replicate i 0)) =
      (if i > 0 then sha (hash ++ List.replicate i 0) else hash) := by
    by_cases h : i = 0
    · subst h; rfl
    · rw [if_neg h, if_pos (by omega)]
  rw [e]
  constructor
  · rintro ⟨b, h, rfl⟩
    obtain ⟨k, h1, rfl⟩ := (generateRandom_iff E sha key hash i b).mp h
    rwa [OwKeychain.beNat_bigBytes]
  · intro h
    exact ⟨_, (generateRandom_iff E sha key hash i _).mpr ⟨k, h, rfl⟩, OwKeychain.beNat_bigBytes k⟩

theorem toy_nonce (bx : Bytes) : IsNonce (toyEc 3 3).hmac bx (beNat (List.replicate 32 3)) :=
  ⟨0, rfl, by unfold InRange; decide +kernel, by simp⟩

example : ∃ b, generateRandom (toyEc 3 3) id [5] [6] 1 = some b ∧ beNat b = beNat (List.replicate 32 3) :=
  (C71_rfc6979_partial _ _ _ _ _ _).mpr (toy_nonce _)

/-- C71, width: the nonce handed to the signature is not padded; it has fewer than 32 bytes whenever it is below 2^248. -/
theorem C71_width_violated (E : Ec) (sha : Bytes → Bytes) (key hash b : Bytes) (i : Nat)
    (h : generateRandom E sha key hash i = some b) : b.length = 32 ↔ 2 ^ 248 ≤ beNat b := by
  obtain ⟨k, ⟨j, rfl, h1, -⟩, rfl⟩ := (generateRandom_iff E sha key hash i b).mp h
  rw [OwKeychain.beNat_bigBytes]
  generalize beNat (candidate E.hmac _ j) = k at *
  have a := OwKeychain.bigBytes_length_le k 31
  have b := (OwKeychain.bigBytes_length_le k 32).mpr (lt_of_lt_of_le h1.2 (by decide +kernel))
  rw [show (2 : Nat) ^ 248 = 256 ^ 31 by norm_num, ← not_lt, ← a]
  omega

/-- A nonce of 31 bytes. -/
example : ∃ E : Ec, ∃ b, generateRandom E id [5] [6] 1 = some b ∧ b.length < 32 := by
  refine ⟨{ toyEc 3 3 with
      hmac := fun _ _ => 0 :: List.replicate 31 1
      hmac_size := by intro _ _; simp }, ?_⟩
  obtain ⟨b, h, hb⟩ := (C71_rfc6979_partial { toyEc 3 3 with
      hmac := fun _ _ => 0 :: List.replicate 31 1
      hmac_size := by intro _ _; simp } id [5] [6] 1 (beNat (0 :: List.replicate 31 1))).mpr
      ⟨0, rfl, by unfold InRange; decide +kernel, by simp⟩
  refine ⟨b, h, ?_⟩
  have hw := C71_width_violated _ _ _ _ _ _ h
  rw [hb] at hw
  have hn : ¬ 2 ^ 248 ≤ beNat (0 :: List.replicate 31 1) := by decide +kernel
  obtain ⟨k, ⟨j, rfl, h1, -⟩, rfl⟩ := (generateRandom_iff _ _ _ _ _ _).mp h
  have := (OwKeychain.bigBytes_length_le _ 32).mpr (lt_of_lt_of_le h1.2 (by decide +kernel : q ≤ 256 ^ 32))
  have h3 := mt hw.mp hn
  omega

/-! ### C46: EOS canonical signatures -/

/-- A 32-byte integer is canonical for EOS when it is a minimal non-negative 32-byte two's complement number: neither negative nor
representable in 31 bytes. -/
def CanonicalInt (b : Bytes) : Prop := b.length = 32 ∧ 2 ^ 247 ≤ beNat b ∧ beNat b < 2 ^ 255

theorem canonical_bytes (x y : UInt8) (t : Bytes) (h : t.length = 30) :
    (x &&& 0x80 = 0 ∧ ¬ (x = 0 ∧ y &&& 0x80 = 0)) ↔ 2 ^ 247 ≤ beNat (x :: y :: t) ∧ beNat (x :: y :: t) < 2 ^ 255 := by
  have k1 : ∀ x : UInt8, x &&& 0x80 = 0 ↔ x.toNat < 128 := by apply Hex.u8_forall; decide +kernel
  have k2 : x = 0 ↔ x.toNat = 0 := by rw [← UInt8.toNat_inj]; rfl
  have hy := y.toNat_lt
  have ht := beNat_lt t
  rw [h] at ht
  rw [k1, k1, k2, beNat_cons, beNat_cons, List.length_cons, h]
  generalize x.toNat = a at *
  generalize y.toNat = b at *
  generalize beNat t = c at *
  have e1 : a * 256 ^ (30 + 1) + (b * 256 ^ 30 + c) = (a * 256 + b) * 256 ^ 30 + c := by ring
  have e2 : (2 : Nat) ^ 247 = 128 * 256 ^ 30 + 0 := by norm_num
  have e3 : (2 : Nat) ^ 255 = 32768 * 256 ^ 30 + 0 := by norm_num
  have hp : 0 < 256 ^ 30 := by positivity
  rw [e1, e2, e3, lex_le ht hp, lex_lt hp ht]
  omega

theorem isCanonical_eq (x : UInt8) (r s : Bytes) (hr : r.length = 32) (hs : s.length = 32) :
    ∃ b, isCanonical (x :: (r ++ s)) = .ok b ∧ (b = true ↔ CanonicalInt r ∧ CanonicalInt s) := by
  match r, s, hr, hs with
  | r0 :: r1 :: r', s0 :: s1 :: s', hr, hs =>
    simp only [List.length_cons] at hr hs
    have i1 : index (x :: (r0 :: r1 :: r' ++ s0 :: s1 :: s')) 1 = .ok r0 := rfl
    have i2 : index (x :: (r0 :: r1 :: r' ++ s0 :: s1 :: s')) 2 = .ok r1 := rfl
    have i3 : index (x :: (r0 :: r1 :: r' ++ s0 :: s1 :: s')) 33 = .ok s0 :=
      Btc.index_at (x :: r0 :: r1 :: r') s0 (s1 :: s') (by simp; omega)
    have i4 : index (x :: (r0 :: r1 :: r' ++ s0 :: s1 :: s')) 34 = .ok s1 := by
      have := Btc.index_at (x :: r0 :: r1 :: r' ++ [s0]) s1 s' (i := 34) (by simp; omega)
      simpa using this
    unfold isCanonical
    rw [i1, i2, i3, i4]
    simp only [Res.bind_ok]
    refine ⟨_, rfl, ?_⟩
    unfold CanonicalInt
    rw [← canonical_bytes r0 r1 r' (by omega), ← canonical_bytes s0 s1 s' (by omega)]
    simp only [List.length_cons, Bool.and_eq_true, Bool.not_eq_true', Bool.and_eq_false_iff, decide_eq_true_eq,
      decide_eq_false_iff_not]
    constructor
    · rintro ⟨⟨⟨a, b⟩, c⟩, d⟩
      exact ⟨⟨by omega, a, by tauto⟩, by omega, c, by tauto⟩
    · rintro ⟨⟨-, a, b⟩, -, c, d⟩
      exact ⟨⟨⟨a, by tauto⟩, c⟩, by tauto⟩

theorem makeCompact_some (E : Ec) (sig pk hash c : Bytes) (h : makeCompact E sig pk hash = some c) :
    ∃ i : UInt8, (i = 0 ∨ i = 1) ∧ E.recover (sig ++ [i]) hash = some pk ∧ c = (31 + i) :: (sig.take 32 ++ sig.drop 32) := by
  have hat : ∀ i : Nat, i < 2 → makeCompactAt E sig pk hash i = some c →
      ∃ i : UInt8, (i = 0 ∨ i = 1) ∧ E.recover (sig ++ [i]) hash = some pk ∧ c = (31 + i) :: (sig.take 32 ++ sig.drop 32) := by
    intro i hi h
    unfold makeCompactAt at h
    split at h
    · rename_i pk' hr
      split at h
      · rename_i he
        rw [he] at hr
        refine ⟨UInt8.ofNat i, ?_, hr, ?_⟩
        · have : i = 0 ∨ i = 1 := by omega
          rcases this with rfl | rfl
          · exact Or.inl rfl
          · exact Or.inr rfl
        · rw [← Option.some.inj h]
          have : i = 0 ∨ i = 1 := by omega
          rcases this with rfl | rfl <;> rfl
      · cases h
    · cases h
  unfold makeCompact at h
  split at h
  · rename_i r hr
    rw [h] at hr
    exact hat 0 (by omega) hr
  · exact hat 1 (by omega) h

theorem canonicalRound_some (E : Ec) (sig pk hash c : Bytes) (hl : sig.length = 64) (h : canonicalRound E sig pk hash = .ok (some c)) :
    ∃ i : UInt8, (i = 0 ∨ i = 1) ∧ E.recover (sig ++ [i]) hash = some pk ∧ c = (31 + i) :: sig ∧
      CanonicalInt (sig.take 32) ∧ CanonicalInt (sig.drop 32) := by
  unfold canonicalRound at h
  split at h
  · cases h
  · rename_i c' hc
    obtain ⟨i, hi, hr, rfl⟩ := makeCompact_some E sig pk hash c' hc
    obtain ⟨b, hb, hbi⟩ := isCanonical_eq (31 + i) (sig.take 32) (sig.drop 32) (by simp; omega) (by simp; omega)
    rw [hb, Res.bind_ok] at h
    split at h
    · rename_i hbt
      have := (hbi.mp hbt)
      refine ⟨i, hi, hr, ?_, this.1, this.2⟩
      rw [← Option.some.inj (Res.ok.inj h), List.take_append_drop]
    · cases h

/-- C46: a signature returned by the EOS signing call has 65 bytes, a header of 31 or 32, r and s canonical, and recovers (with the
recovery number of its header) to the public key of the signing key, for any external operations. -/
theorem C46_canonical (E : Ec) (sha : Bytes → Bytes) (key hash c : Bytes) (h : signCanonical E sha key hash = .ok c) :
    ∃ (i : UInt8) (rs pk : Bytes), c = (31 + i) :: rs ∧ (i = 0 ∨ i = 1) ∧ c.length = 65 ∧
      CanonicalInt (rs.take 32) ∧ CanonicalInt (rs.drop 32) ∧
      E.pub key = some pk ∧ E.recover (rs ++ [i]) hash = some pk := by
  have loop : ∀ f n, signCanonicalLoop E sha key hash f n = .ok c → ∃ (i : UInt8) (rs pk : Bytes), c = (31 + i) :: rs ∧
      (i = 0 ∨ i = 1) ∧ c.length = 65 ∧ CanonicalInt (rs.take 32) ∧ CanonicalInt (rs.drop 32) ∧
      E.pub key = some pk ∧ E.recover (rs ++ [i]) hash = some pk := by
    intro f
    induction f with
    | zero => intro n h; cases h
    | succ f ih =>
      intro n h
      unfold signCanonicalLoop at h
      split at h
      · cases h
      · cases h
      · rename_i sig hsig
        split at h
        · cases h
        · rename_i pk hpk
          have hl : sig.length = 64 := by
            unfold signRFC6979 at hsig
            split at hsig
            · cases hsig
            · split at hsig
              · cases hsig
              · split at hsig
                · rename_i s hs
                  cases hsig
                  exact E.sign_size _ _ _ _ hs
                · cases hsig
          split at h
          · cases h
          · cases h
          · rename_i c' hc
            obtain rfl := Res.ok.inj h
            obtain ⟨i, hi, hr, e, h1, h2⟩ := canonicalRound_some E sig pk hash _ hl hc
            exact ⟨i, sig, pk, e, hi, by rw [e]; simp; omega, h1, h2, hpk, hr⟩
          · exact ih _ h
  exact loop 25 0 h

/-- C46, completeness: if some attempt below 25 yields a signature that recovers to the public key with recovery number 0 or 1 and
has canonical r and s, and no earlier attempt fails outright, the call returns a signature. -/
theorem C46_complete (E : Ec) (sha : Bytes → Bytes) (key hash pk : Bytes) (n : Nat) (hn : n < 25) (hpk : E.pub key = some pk)
    (hall : ∀ j ≤ n, ∃ s, signRFC6979 E sha key hash j = .ok s)
    (hgood : ∀ s, signRFC6979 E sha key hash n = .ok s →
      (E.recover (s ++ [0]) hash = some pk ∨ E.recover (s ++ [1]) hash = some pk) ∧
        CanonicalInt (s.take 32) ∧ CanonicalInt (s.drop 32)) :
    ∃ c, signCanonical E sha key hash = .ok c := by
  have loop : ∀ d i f, i + d = n → d < f → ∃ c, signCanonicalLoop E sha key hash f i = .ok c := by
    intro d
    induction d with
    | zero =>
      intro i f hi hf
      match f, hf with
      | f + 1, _ =>
        obtain ⟨s, hs⟩ := hall i (by omega)
        obtain rfl : i = n := by omega
        obtain ⟨h1, h2, h3⟩ := hgood s hs
        unfold signCanonicalLoop
        simp only [hs, hpk]
        have hmc : ∃ x, makeCompact E s pk hash = some (x :: (s.take 32 ++ s.drop 32)) := by
          unfold makeCompact
          by_cases h0 : E.recover (s ++ [0]) hash = some pk
          · have : makeCompactAt E s pk hash 0 = some ((27 + UInt8.ofNat 0 + 4) :: (s.take 32 ++ s.drop 32)) := by
              unfold makeCompactAt
              rw [show UInt8.ofNat 0 = 0 from rfl, h0]; simp
            rw [this]; exact ⟨_, rfl⟩
          · have h1' := h1.resolve_left h0
            have a0 : makeCompactAt E s pk hash 0 = none := by
              unfold makeCompactAt
              rw [show UInt8.ofNat 0 = 0 from rfl]
              cases hr : E.recover (s ++ [0]) hash with
              | none => rfl
              | some p => simp only; rw [if_neg]; rintro rfl; exact h0 hr
            have a1 : makeCompactAt E s pk hash 1 = some ((27 + UInt8.ofNat 1 + 4) :: (s.take 32 ++ s.drop 32)) := by
              unfold makeCompactAt
              rw [show UInt8.ofNat 1 = 1 from rfl, h1']; simp
            rw [a0]; exact ⟨_, a1⟩
        obtain ⟨x, hx⟩ := hmc
        obtain ⟨b, hb, hbi⟩ := isCanonical_eq x (s.take 32) (s.drop 32) h2.1 h3.1
        have hbt := hbi.mpr ⟨h2, h3⟩
        subst hbt
        have : canonicalRound E s pk hash = .ok (some (x :: (s.take 32 ++ s.drop 32))) := by
          unfold canonicalRound
          rw [hx]
          simp only [hb, Res.bind_ok, if_true]
        rw [this]
        exact ⟨_, rfl⟩
    | succ d ih =>
      intro i f hi hf
      match f, hf with
      | f + 1, hf =>
        obtain ⟨s, hs⟩ := hall i (by omega)
        unfold signCanonicalLoop
        simp only [hs, hpk]
        have hl : s.length = 64 := by
          unfold signRFC6979 at hs
          split at hs
          · cases hs
          · split at hs
            · cases hs
            · split at hs
              · rename_i s' hs'
                cases hs
                exact E.sign_size _ _ _ _ hs'
              · cases hs
        have hround : (∃ c, canonicalRound E s pk hash = .ok (some c)) ∨ canonicalRound E s pk hash = .ok none := by
          unfold canonicalRound
          cases hm : makeCompact E s pk hash with
          | none => exact Or.inr rfl
          | some c =>
            obtain ⟨x, -, -, rfl⟩ := makeCompact_some E s pk hash c hm
            obtain ⟨b, hb, -⟩ := isCanonical_eq (31 + x) (s.take 32) (s.drop 32) (by simp; omega) (by simp; omega)
            simp only [hb, Res.bind_ok]
            cases b
            · exact Or.inr rfl
            · exact Or.inl ⟨_, rfl⟩
        rcases hround with ⟨c, hc⟩ | hc
        · rw [hc]; exact ⟨c, rfl⟩
        · rw [hc]; exact ih (i + 1) f (by omega) (by omega)
  exact loop n 0 25 (by omega) hn

theorem toy_sign (i : Nat) : signRFC6979 (toyEc 3 3) id [5] [6] i = .ok (List.replicate 64 3) := by
  obtain ⟨b, h, hb⟩ := (C71_rfc6979_partial (toyEc 3 3) id [5] [6] i _).mpr (toy_nonce _)
  unfold signRFC6979
  rw [h]
  rfl

/-- Both theorems apply to the worthless instance: its signatures have r = s = 0x0303..03, which is canonical. -/
example : ∃ c, signCanonical (toyEc 3 3) id [5] [6] = .ok c := by
  refine C46_complete (toyEc 3 3) id [5] [6] (List.replicate 64 1) 0 (by omega) rfl (fun j _ => ⟨_, toy_sign j⟩) ?_
  intro s hs
  rw [toy_sign] at hs
  obtain rfl := Res.ok.inj hs
  exact ⟨Or.inl rfl, ⟨by decide +kernel, by decide +kernel, by decide +kernel⟩, by decide +kernel, by decide +kernel, by decide +kernel⟩

end Verif
