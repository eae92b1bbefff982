import Verif.Lemmas.OwPath
import Verif.Props.OwKeychain

/-! C19 (paths), C59 (coin keys), C60 (owchain texts). -/

namespace Verif
open Verif.Spec Verif.OwKeychain

/-- C19 (a). The path `m/a/b'/…` derives, from the root key of the seed, exactly the children it spells, in order
(for all numbers of components, all indexes below 2^31). -/
theorem C19_path_denotes (E : Ext) (seed : Bytes) (c : UInt32) (l : List PathStep) :
    derivePrivate E seed (asc "m" ++ pathText l) c =
      (initRootKey E seed c >>= fun root => l.foldlM (fun k s => genPrivateChild E k s.child) root) := by
  have hf : (asc "m" ++ pathText l).filter (fun b => b ≠ 0x20) = asc "m" ++ pathText l := by
    rw [List.filter_append, path_no_space]; rfl
  unfold derivePrivate
  simp only [hf]
  cases l with
  | nil =>
    rw [if_pos (by simp [pathText])]
    cases initRootKey E seed c <;> rfl
  | cons s l =>
    have hp : asc "m" ++ pathText (s :: l) = 0x6d :: 0x2f :: (s.text ++ pathText l) := by simp [pathText]; rfl
    rw [hp]
    have hne : ¬ ((0x6d :: 0x2f :: (s.text ++ pathText l) : Bytes) = asc "m" ∨
        (0x6d :: 0x2f :: (s.text ++ pathText l) : Bytes) = asc "/" ∨
        (0x6d :: 0x2f :: (s.text ++ pathText l) : Bytes) = []) := by
      rintro (h | h | h)
      · have := congrArg List.length h; simp [asc] at this
      · have := congrArg List.length h; simp [asc] at this
      · cases h
    rw [if_neg hne, if_neg (by simp [asc])]
    simp only [List.drop_succ_cons, List.drop_zero, splitOn_path]
    cases initRootKey E seed c with
    | ok root => simp only [walk_text]; rfl
    | err => rfl
    | panic => rfl

/-- C19 (b). The relative path `/a/b/…` derives public children in order. -/
theorem C19_relative_path_denotes (E : Ext) (k : ExtendedKey) (s : PathStep) (l : List PathStep) :
    derivePublicFromPath E k (pathText (s :: l)) = (s :: l).foldlM (fun k s => genPublicChild E k s.child) k := by
  unfold derivePublicFromPath
  simp only [path_no_space]
  have hp : pathText (s :: l) = [] ++ 0x2f :: (s.text ++ pathText l) := by simp [pathText]
  rw [hp, splitOn_append _ _ (by simp), splitOn_path, if_neg (by simp [asc])]
  simp only [List.drop_succ_cons, List.drop_zero]
  rw [walk_text]

/-- C19 (c). Spaces in a path are ignored. -/
theorem C19_spaces_ignored (E : Ext) (seed p q : Bytes) (c : UInt32)
    (h : p.filter (fun b => b ≠ 0x20) = q.filter (fun b => b ≠ 0x20)) :
    derivePrivate E seed p c = derivePrivate E seed q c := by
  unfold derivePrivate; simp only [h]

-- the text of m/44'/88'/0/4294 and its components
example : asc "m" ++ pathText [⟨44, true, by decide⟩, ⟨88, true, by decide⟩, ⟨0, false, by decide⟩,
    ⟨4294, false, by decide⟩] = asc "m/44'/88'/0/4294" := by decide +kernel
example : (derivePrivate (toyExt (List.replicate 64 1) rfl) (List.replicate 16 5) (asc "m / 44'/88'/0/ 4294")
    toyIds.secp256k1).isOk = true := by decide +kernel

/-- The part of C19 that fails: out-of-range components are accepted and wrap around. For every seed and curve,
`m/4294967296` is the key of `m/0`; `m/2147483648'` (marked hardened) is the non-hardened key `m/0`; the unmarked
`m/2147483648` is the hardened key `m/0'`; and the negative component -1 gives the key of `m/2147483647'`. -/
theorem C19_out_of_range_violated (E : Ext) (seed : Bytes) (c : UInt32) :
    derivePrivate E seed (asc "m/4294967296") c = derivePrivate E seed (asc "m/0") c ∧
    derivePrivate E seed (asc "m/2147483648'") c = derivePrivate E seed (asc "m/0") c ∧
    derivePrivate E seed (asc "m/2147483648") c = derivePrivate E seed (asc "m/0'") c ∧
    derivePrivate E seed (asc "m/-1") c = derivePrivate E seed (asc "m/2147483647'") c := by
  have key : ∀ p q : Bytes, (p = asc "m/4294967296" ∧ q = asc "m/0") ∨ (p = asc "m/2147483648'" ∧ q = asc "m/0") ∨
      (p = asc "m/2147483648" ∧ q = asc "m/0'") ∨ (p = asc "m/-1" ∧ q = asc "m/2147483647'") →
      derivePrivate E seed p c = derivePrivate E seed q c := by
    intro p q h
    have hshape : ∀ p : Bytes, (p.filter (fun b => b ≠ 0x20) = p ∧ p ≠ asc "m" ∧ p ≠ asc "/" ∧ p ≠ [] ∧
        (asc "m/").isPrefixOf p = true) → ∀ e i, splitOn 0x2f (p.drop 2) = [e] → pathIndex e = some i →
        derivePrivate E seed p c = (initRootKey E seed c >>= fun r => genPrivateChild E r i) := by
      rintro p ⟨h1, h2, h3, h4, h5⟩ e i h6 h7
      unfold derivePrivate
      simp only [h1, h2, h3, h4, h5, h6, or_self, if_false, not_true, walk, h7]
      cases initRootKey E seed c with
      | ok r =>
        simp only [Res.bind_ok]
        cases genPrivateChild E r i <;> rfl
      | err => rfl
      | panic => rfl
    rcases h with ⟨rfl, rfl⟩ | ⟨rfl, rfl⟩ | ⟨rfl, rfl⟩ | ⟨rfl, rfl⟩
    · rw [hshape (asc "m/4294967296") (by decide +kernel) (asc "4294967296") 0 (by decide +kernel) (by decide +kernel),
        hshape (asc "m/0") (by decide +kernel) (asc "0") 0 (by decide +kernel) (by decide +kernel)]
    · rw [hshape (asc "m/2147483648'") (by decide +kernel) (asc "2147483648'") 0 (by decide +kernel) (by decide +kernel),
        hshape (asc "m/0") (by decide +kernel) (asc "0") 0 (by decide +kernel) (by decide +kernel)]
    · rw [hshape (asc "m/2147483648") (by decide +kernel) (asc "2147483648") 0x80000000 (by decide +kernel)
          (by decide +kernel),
        hshape (asc "m/0'") (by decide +kernel) (asc "0'") 0x80000000 (by decide +kernel) (by decide +kernel)]
    · rw [hshape (asc "m/-1") (by decide +kernel) (asc "-1") 0xffffffff (by decide +kernel) (by decide +kernel),
        hshape (asc "m/2147483647'") (by decide +kernel) (asc "2147483647'") 0xffffffff (by decide +kernel)
          (by decide +kernel)]
  exact ⟨key _ _ (by simp), key _ _ (by simp), key _ _ (by simp), key _ _ (by simp)⟩

theorem OwKeychain.atoi_some (s : Bytes) (i : Int) (h : atoi s = some i) : ∃ sign digits : Bytes,
    s = sign ++ digits ∧ (sign = [] ∨ sign = [0x2b] ∨ sign = [0x2d]) ∧ digits ≠ [] ∧
    ∀ d ∈ digits, 0x30 ≤ d.toNat ∧ d.toNat ≤ 0x39 := by
  have key : ∀ (neg : Bool) (ds : Bytes), (if ds.isEmpty then none
      else if ds.all (fun d => 0x30 ≤ d && d ≤ 0x39) then
        (if -(2 ^ 63 : Int) ≤ (if neg then -(decVal ds : Int) else decVal ds) ∧
          (if neg then -(decVal ds : Int) else decVal ds) < 2 ^ 63 then
          some (if neg then -(decVal ds : Int) else decVal ds) else none)
      else none) = some i → ds ≠ [] ∧ ∀ d ∈ ds, 0x30 ≤ d.toNat ∧ d.toNat ≤ 0x39 := by
    intro neg ds h
    split at h
    · cases h
    · rename_i h1
      split at h
      · rename_i h2
        rw [List.all_eq_true] at h2
        refine ⟨by simpa using h1, fun d hd => ?_⟩
        have := h2 d hd
        simpa [UInt8.le_iff_toNat_le] using this
      · cases h
  unfold atoi at h
  split at h
  rename_i neg ds heq
  obtain ⟨k1, k2⟩ := key neg ds h
  split at heq
  · rename_i r; cases heq; exact ⟨[0x2d], _, rfl, by simp, k1, k2⟩
  · rename_i r; cases heq; exact ⟨[0x2b], _, rfl, by simp, k1, k2⟩
  · cases heq; exact ⟨[], _, rfl, by simp, k1, k2⟩

theorem OwKeychain.pathIndex_some (e : Bytes) (i : UInt32) (h : pathIndex e = some i) : ComponentText e := by
  unfold pathIndex at h
  split at h
  · cases h
  · rename_i hne
    have hne' : e ≠ [] := by simpa using hne
    split at h
    · rename_i hidx
      rw [Option.map_eq_some_iff] at h
      obtain ⟨v, hv, _⟩ := h
      obtain ⟨sg, ds, e1, e2, e3, e4⟩ := atoi_some _ _ hv
      refine ⟨sg, ds, [0x27], ?_, e2, e3, e4, by simp⟩
      have hlast : e.getLast hne' = 0x27 := by
        have hlt : e.idxOf 0x27 < e.length := by
          have := List.length_pos_iff.mpr hne'; omega
        have := List.getElem_idxOf hlt
        rw [List.getLast_eq_getElem]
        simp only [hidx] at this
        exact this
      rw [← e1, ← hlast, List.dropLast_append_getLast]
    · rw [Option.map_eq_some_iff] at h
      obtain ⟨v, hv, _⟩ := h
      obtain ⟨sg, ds, e1, e2, e3, e4⟩ := atoi_some _ _ hv
      exact ⟨sg, ds, [], by simp [e1], e2, e3, e4, by simp⟩

theorem OwKeychain.walk_some (step : ExtendedKey → UInt32 → Res ExtendedKey) : ∀ (es : List Bytes)
    (k c : ExtendedKey), walk step es k = .ok c → ∀ e ∈ es, ComponentText e
  | [], _, _, _ => by simp
  | e :: es, k, c, h => by
    unfold walk at h
    split at h
    · cases h
    · rename_i i hi
      split at h
      · rename_i k' _
        intro x hx
        rcases List.mem_cons.mp hx with rfl | hx
        · exact pathIndex_some _ _ hi
        · exact walk_some step es k' c h x hx
      · cases h
      · cases h

theorem OwKeychain.splitOn_join (sep : UInt8) : ∀ t : Bytes, ∃ h r, splitOn sep t = h :: r ∧
    h ++ (r.map (sep :: ·)).flatten = t
  | [] => ⟨[], [], rfl, rfl⟩
  | x :: xs => by
    obtain ⟨h, r, e1, e2⟩ := splitOn_join sep xs
    by_cases hx : x = sep
    · refine ⟨[], h :: r, by simp [splitOn, hx, e1], ?_⟩
      simp [← e2, hx]
    · exact ⟨x :: h, r, by simp [splitOn, hx, e1], by simp [← e2]⟩

/-- C19 (d). Whatever is accepted (apart from the three spellings of the root) reads, spaces removed, as `m` followed by
one or more `/component`, each an optionally signed decimal number with an optional final apostrophe: malformed
components are always rejected. Partial: signs and out-of-range numbers are not rejected (see the violation above). -/
theorem C19_accepted_shape_partial (E : Ext) (seed path : Bytes) (c : UInt32) (k : ExtendedKey)
    (h : derivePrivate E seed path c = .ok k) :
    path.filter (fun b => b ≠ 0x20) ∈ [asc "m", asc "/", []] ∨
    ∃ es : List Bytes, es ≠ [] ∧ path.filter (fun b => b ≠ 0x20) = asc "m" ++ (es.map (0x2f :: ·)).flatten ∧
      ∀ e ∈ es, ComponentText e := by
  unfold derivePrivate at h
  simp only at h
  split at h
  · left; rename_i h1; simpa using h1
  · split at h
    · cases h
    · rename_i h2
      right
      split at h
      · rename_i root _
        have h2' : asc "m/" <+: path.filter (fun b => b ≠ 0x20) := by
          rw [← List.isPrefixOf_iff_prefix]; simpa using h2
        obtain ⟨r, hr⟩ := h2'
        obtain ⟨e, es, e1, e2⟩ := splitOn_join 0x2f r
        have hd : (path.filter (fun b => b ≠ 0x20)).drop 2 = r := by rw [← hr]; rfl
        rw [hd, e1] at h
        refine ⟨e :: es, by simp, ?_, walk_some _ _ _ _ h⟩
        rw [← hr, ← e2]; simp [asc]
      · cases h
      · cases h

example : (derivePrivate (toyExt (List.replicate 64 1) rfl) (List.replicate 16 5) (asc "m/1'2") toyIds.secp256k1)
    = .err := by decide +kernel

/-! ### Coin keys -/

local instance : LawfulMonad Res := LawfulMonad.mk' _
  (id_map := fun x => by cases x <;> rfl) (pure_bind := fun _ _ => rfl)
  (bind_assoc := fun x _ _ => by cases x <;> rfl)

/-- Extending a derived path by one child. -/
theorem OwKeychain.derive_snoc (E : Ext) (seed : Bytes) (c : UInt32) (l : List PathStep) (k k' : ExtendedKey) (i : UInt32)
    (h : derivePrivate E seed (asc "m" ++ pathText l) c = .ok k) (h2 : genPrivateChild E k i = .ok k') :
    ∃ l', derivePrivate E seed (asc "m" ++ pathText l') c = .ok k' := by
  have hlt := i.toNat_lt
  obtain ⟨s, hs⟩ : ∃ s : PathStep, s.child = i := by
    by_cases hh : i.toNat < 2 ^ 31
    · exact ⟨⟨i.toNat, false, hh⟩, by simp [PathStep.child]⟩
    · refine ⟨⟨i.toNat - 2 ^ 31, true, by omega⟩, ?_⟩
      apply UInt32.toNat_inj.mp
      simp [PathStep.child]
      omega
  refine ⟨l ++ [s], ?_⟩
  rw [C19_path_denotes] at h ⊢
  rw [Res.bind_eq_ok] at h ⊢
  obtain ⟨r, h0, h⟩ := h
  refine ⟨r, h0, ?_⟩
  rw [List.foldlM_append, h]
  simp [hs, h2]

/-- C59 on the ed25519 family. Whenever a private key is handed out for (coin, i), the coin root public key exists and
its public child i is the public key of that private key, for every seed and coin. -/
theorem C59_coin_keys_ed25519 (E : Ext) (seed : Bytes) (coin : CoinType) (i : UInt32) (b : Bytes)
    (hc : coin.curveType = E.ids.ed25519 ∨ coin.curveType = E.ids.x25519 ∨ coin.curveType = E.ids.curve25519Sha256)
    (law : SimpleLaw E E.ids.ed25519 leNat) (hi : i.toNat < 2 ^ 31)
    (hb : derivedPrivateKeyBytes E seed coin i = .ok b) :
    ∃ R P, coinRootPublicKey E seed coin = .ok R ∧ genPublicChild E R i = .ok P ∧
      publicKeyBytes E P = E.mulBaseG E.ids.ed25519 b := by
  unfold derivedPrivateKeyBytes at hb
  rw [Res.bind_eq_ok] at hb
  obtain ⟨tmp, ht, hb⟩ := hb
  rw [Res.bind_eq_ok] at hb
  obtain ⟨root, hr, hb⟩ := hb
  rw [Res.bind_eq_ok] at hb
  obtain ⟨child, hch, hb⟩ := hb
  cases hb
  have hpath : prePath = asc "m" ++ pathText [⟨44, true, by decide⟩, ⟨88, true, by decide⟩] := by decide +kernel
  have ht' := ht
  rw [hpath] at ht'
  obtain ⟨l', hroot⟩ := derive_snoc E seed _ _ _ _ _ ht' hr
  obtain ⟨_, _, hlo, hhi, _, _⟩ := C17_ed25519_scalars E seed _ _ hc tmp ht
  have hshape : PrivShape coin.curveType tmp :=
    derivePrivate_invariant E seed prePath _ (PrivShape coin.curveType)
      (fun k hk => (root_shape E seed _ k hk).1) (fun k i k' h1 h2 => child_shape E _ k i k' h1 h2) tmp ht
  have hrs := child_shape E _ _ _ _ hshape hr
  have hcs := child_shape E _ _ _ _ hrs hch
  have hnz : leNat root.key % curveOrder E.ids E.ids.ed25519 ≠ 0 := by
    obtain ⟨_, _, ck, hck, rfl⟩ := (genPrivateChild_ok E tmp _ root).mp hr
    rw [hshape.curve] at hck
    obtain ⟨_, c2, c3⟩ := priChild_ed E _ tmp.key _ ((edLike_iff _ _).mpr hc) hlo (by omega) ck hck
    simp only
    rw [c2]; exact c3
  have hd : root.depth.toNat ≠ 255 := by
    intro h
    exact ((genPrivateChild_ok E root i child).mp hch).1 (UInt8.toNat_inj.mp h)
  have hpub := genPublic_of_private E tmp _ _ hr
  refine ⟨getPublicKey E root, getPublicKey E child, ?_,
    ((C15_commute_ed25519 E seed _ _ root i hc law hroot hnz hd hi).2 child hch).1, ?_⟩
  · unfold coinRootPublicKey; rw [ht]; exact hpub
  · simp [publicKeyBytes, getPublicKey, hcs.priv, hcs.curve, typeChoose_ed _ _ ((edLike_iff _ _).mpr hc)]

example : (derivedPrivateKeyBytes (toyExt (List.replicate 64 1) rfl) (List.replicate 16 5) ⟨7, toyIds.ed25519⟩ 12).isOk
    = true := by decide +kernel

/-- C59 on the short-Weierstrass curves (Bitcoin and Ethereum coin types). Partial: assumes that the coin root key and the
handed-out key are 32 bytes long (C18 shows this is not guaranteed). -/
theorem C59_coin_keys_weierstrass_partial (E : Ext) (seed : Bytes) (coin : CoinType) (i : UInt32) (b : Bytes)
    (hc : coin.curveType = E.ids.secp256k1 ∨ coin.curveType = E.ids.secp256r1 ∨ coin.curveType = E.ids.sm2)
    (law : WeierstrassLaw E coin.curveType) (hi : i.toNat < 2 ^ 31)
    (hb : derivedPrivateKeyBytes E seed coin i = .ok b) (hlen : b.length = 32)
    (hroot : ∀ tmp root, derivePrivate E seed (asc "m/44'/88'") coin.curveType = .ok tmp →
      genPrivateChild E tmp coin.hdIndex = .ok root → root.key.length = 32) :
    ∃ R P, coinRootPublicKey E seed coin = .ok R ∧ genPublicChild E R i = .ok P ∧
      publicKeyBytes E P = E.mulBaseG coin.curveType b := by
  unfold derivedPrivateKeyBytes at hb
  rw [Res.bind_eq_ok] at hb
  obtain ⟨tmp, ht, hb⟩ := hb
  rw [Res.bind_eq_ok] at hb
  obtain ⟨root, hr, hb⟩ := hb
  rw [Res.bind_eq_ok] at hb
  obtain ⟨child, hch, hb⟩ := hb
  cases hb
  have hrl := hroot tmp root ht hr
  have hshape : PrivShape coin.curveType tmp :=
    derivePrivate_invariant E seed prePath _ (PrivShape coin.curveType)
      (fun k hk => (root_shape E seed _ k hk).1) (fun k i k' h1 h2 => child_shape E _ k i k' h1 h2) tmp ht
  have hrs := child_shape E _ _ _ _ hshape hr
  have hcs := child_shape E _ _ _ _ hrs hch
  have hdis := E.ids.distinct
  simp only [List.nodup_cons, List.mem_cons, List.not_mem_nil, or_false, not_or] at hdis
  have hned : ¬ (coin.curveType = E.ids.ed25519 ∨ coin.curveType = E.ids.x25519 ∨
      coin.curveType = E.ids.curve25519Sha256) := by
    rcases hc with h | h | h <;> rw [h] <;> rintro (h | h | h) <;> simp_all
  have hed : edLike E.ids coin.curveType = false := by
    by_contra hh; exact hned ((edLike_iff _ _).mp (by simpa using hh))
  have hrange := C18_private_child_partial E tmp _ root (by rw [hshape.curve]; exact hned) hr
  have hnz : beNat root.key % curveOrder E.ids root.curveType ≠ 0 := by
    rw [hrs.curve, ← hshape.curve, Nat.mod_eq_of_lt hrange.2.1]; omega
  have hd : root.depth.toNat ≠ 255 := by
    intro h
    exact ((genPrivateChild_ok E root i child).mp hch).1 (UInt8.toNat_inj.mp h)
  have hpub := genPublic_of_private E tmp _ _ hr
  have law' : WeierstrassLaw E root.curveType := by rw [hrs.curve]; exact law
  refine ⟨getPublicKey E root, getPublicKey E child, ?_,
    ((C15_commute_weierstrass_partial E root i (by rw [hrs.curve]; exact hc) law' hrs.priv hrl hnz hd hi).2
      child hch hlen).1, ?_⟩
  · unfold coinRootPublicKey; rw [ht]; exact hpub
  · simp [publicKeyBytes, getPublicKey, hcs.priv, hcs.curve, typeChoose_not_ed _ _ hed]

example : (match derivedPrivateKeyBytes (toyExt (List.replicate 64 1) rfl) (List.replicate 16 5)
    ⟨0, toyIds.secp256k1⟩ 12 with
    | .ok b => b.length == 32
    | _ => false) = true := by decide +kernel

/-! ### owchain texts -/

theorem OwKeychain.div_window {a b c d x : Nat} (h1 : d * c ≤ a * b) (h2 : (a + 1) * b ≤ (d + 1) * c) (hx : x < b) :
    (a * b + x) / c = d := by
  rw [Nat.add_mul a, Nat.one_mul] at h2
  exact Nat.div_eq_of_lt_le (by omega) (by omega)

/-- C60 (a). A share whose public key is 32 bytes, or 33 bytes not starting with a zero byte, and whose chain code is
32 bytes, encodes to a text starting with `owchain` and decodes back to itself in every field. -/
theorem C60_owchain_roundtrip (ms : MultiSigShare) (hc : ms.chainCode.length = 32)
    (hp : ms.pubkey.length = 32 ∨ (ms.pubkey.length = 33 ∧ ∀ x ∈ ms.pubkey.head?, x ≠ 0)) :
    ∃ t, chainEncode ms = .ok t ∧ asc "owchain" <+: t ∧ chainDecode t = .ok ms := by
  obtain ⟨pk, cc, ct⟩ := ms
  simp only at hc hp
  obtain ⟨pad, hpad, hl, hz⟩ : ∃ pad : Bytes, (if pk.length = 32 then [(0 : UInt8)] else []) = pad ∧
      (pad ++ pk).length = 33 ∧ ∃ z r, pad ++ pk = z :: r ∧ (if z = 0 then r else pad ++ pk) = pk := by
    rcases hp with h | ⟨h, h0⟩
    · exact ⟨[0], by simp [h], by simp [h], 0, pk, rfl, by simp⟩
    · refine ⟨[], by simp [h], by simp [h], ?_⟩
      cases pk with
      | nil => simp at h
      | cons z r =>
        have : z ≠ 0 := h0 z (by simp)
        exact ⟨z, r, rfl, by simp [this]⟩
  obtain ⟨z, r, hzr, hpk⟩ := hz
  obtain ⟨t, h1, _, h2⟩ := C01_base58_roundtrip alphabet alphabet_ok
    (chainPrefix ++ (if pk.length = 32 then [0] else []) ++ pk ++ cc ++ beBytes 4 ct.toNat)
  have hct : beNat (beBytes 4 ct.toNat) = ct.toNat := beNat_beBytes_of_lt (by have := ct.toNat_lt; omega)
  have lct : (beBytes 4 ct.toNat).length = 4 := by simp
  have hbytes : chainPrefix ++ (if pk.length = 32 then [0] else []) ++ pk ++ cc ++ beBytes 4 ct.toNat
      = chainPrefix ++ ((pad ++ pk) ++ (cc ++ beBytes 4 ct.toNat)) := by rw [hpad]; simp
  rw [hbytes] at h1 h2
  generalize hcb : beBytes 4 ct.toNat = cb at *
  have hpre : asc "owchain" <+: t := by
    refine Base58.encode_prefix alphabet alphabet_ok.length _ t (asc "owchain") ?_ 96 1787007117771 ?_ (by decide)
      (by decide +kernel) h1
    · simp [leadingZeros, chainPrefix]
    · have hlt := beNat_lt ((pad ++ pk) ++ (cc ++ cb))
      have hl2 : ((pad ++ pk) ++ (cc ++ cb)).length = 69 := by
        rw [List.length_append, hl, List.length_append, hc, lct]
      rw [beNat_append]
      rw [hl2] at hlt ⊢
      have b1 : 1787007117771 * 58 ^ 96 ≤ beNat chainPrefix * 256 ^ 69 := by decide +kernel
      have b2 : (beNat chainPrefix + 1) * 256 ^ 69 ≤ (1787007117771 + 1) * 58 ^ 96 := by decide +kernel
      exact div_window b1 b2 hlt
  refine ⟨t, ?_, hpre, ?_⟩
  · unfold chainEncode; simp only; rw [hcb, hbytes]; exact h1
  · unfold chainDecode
    rw [if_neg (by simp [prefix_isPrefixOf hpre]), h2]
    simp only [Res.bind_ok]
    have l7 : chainPrefix.length = 7 := rfl
    have hlen : (chainPrefix ++ ((pad ++ pk) ++ (cc ++ cb))).length = 76 := by
      rw [List.length_append, List.length_append, hl, List.length_append, hc, lct]; rfl
    have hlen' : ¬ (chainPrefix ++ ((pad ++ pk) ++ (cc ++ cb))).length ≠ 76 := by rw [hlen]; simp
    rw [if_neg hlen', cmpPrefix_ok]
    simp only [Res.bind_ok]
    rw [slice_mid (i := 7) (j := 40) chainPrefix (pad ++ pk) _ rfl (by rw [hl])]
    have e3 : slice (chainPrefix ++ ((pad ++ pk) ++ (cc ++ cb))) 40 72 = .ok cc := by
      rw [← List.append_assoc]
      exact slice_mid (i := 40) (j := 72) _ cc _ (by rw [List.length_append, hl]; rfl) (by rw [hc])
    have e4 : slice (chainPrefix ++ ((pad ++ pk) ++ (cc ++ cb))) 72
        (chainPrefix ++ ((pad ++ pk) ++ (cc ++ cb))).length = .ok cb := by
      rw [hlen, ← List.append_assoc, ← List.append_assoc]
      exact slice_suffix (i := 72) (j := 76) _ cb
        (by rw [List.length_append, List.length_append, hl, hc]; rfl) (by rw [lct])
    rw [e3, e4]
    simp only [Res.bind_ok]
    have e5 : index (pad ++ pk) 0 = .ok z := by rw [hzr]; rfl
    rw [e5]
    simp only [Res.bind_ok]
    by_cases h0 : z = 0
    · rw [if_pos h0] at hpk ⊢
      have e6 : slice (pad ++ pk) 1 (pad ++ pk).length = .ok pk := by
        rw [hzr, ← hpk]
        exact slice_suffix [z] r rfl (by simp; omega)
      rw [e6]
      simp [hct]
    · rw [if_neg h0] at hpk ⊢
      rw [hpk]
      simp [hct]

example : ∃ ms : MultiSigShare, ms.chainCode.length = 32 ∧ ms.pubkey.length = 33 ∧ ∀ x ∈ ms.pubkey.head?, x ≠ 0 :=
  ⟨⟨2 :: List.replicate 32 7, List.replicate 32 9, 5⟩, rfl, rfl, by simp⟩

/-- C60 (b). `ChainDecode` never panics, whatever the text. -/
theorem C60_owchain_total (t : Bytes) : chainDecode t ≠ .panic := by
  unfold chainDecode
  split
  · simp
  · cases hd : Base58.decode alphabet t with
    | err => simp
    | panic =>
      by_cases ht : ∀ c ∈ t, c ∈ alphabet
      · rw [Base58.decode_eq alphabet alphabet_ok _ ht] at hd; cases hd
      · rw [Base58.decode_err alphabet alphabet_ok _ ht] at hd; cases hd
    | ok d =>
      simp only [Res.bind_ok]
      split
      · simp
      · rename_i hl
        have hl' : d.length = 76 := by simpa using hl
        cases hc : cmpPrefix chainPrefix d with
        | err => simp
        | panic =>
          rw [cmpPrefix_panic_iff] at hc
          have : chainPrefix.length = 7 := rfl
          omega
        | ok u =>
          simp only [Res.bind_ok]
          rw [slice_ok (by omega) (by omega), slice_ok (b := d) (i := 40) (j := 72) (by omega) (by omega),
            slice_ok (b := d) (i := 72) (by omega) (by omega)]
          simp only [Res.bind_ok]
          have hpl : ((d.take 40).drop 7).length = 33 := by simp [hl']
          rw [index_ok (by omega), slice_ok (by omega) (by omega)]
          simp only [Res.bind_ok]
          split <;> simp

/-- C60 (c). The texts `ChainDecode` reads, exactly: a text is read as a share if and only if the share has a 32-byte
chain code and a public key of 32 bytes, or of 33 bytes not starting with a zero byte, and the text is the one
`ChianEncode` writes for that share. So no two texts are read as the same share. -/
theorem C60_owchain_language (t : Bytes) (ms : MultiSigShare) :
    chainDecode t = .ok ms ↔
      (ms.chainCode.length = 32 ∧
        (ms.pubkey.length = 32 ∨ (ms.pubkey.length = 33 ∧ ∀ x ∈ ms.pubkey.head?, x ≠ 0))) ∧
      chainEncode ms = .ok t := by
  constructor
  · intro h
    unfold chainDecode at h
    split at h
    · cases h
    · obtain ⟨d, hd, h1⟩ := Res.bind_eq_ok.mp h
      clear h
      rename' h1 => h
      by_cases hl : d.length ≠ 76
      · rw [if_pos hl] at h
        cases h
      · have hl' : d.length = 76 := by simpa using hl
        rw [if_neg hl] at h
        dsimp only at h
        obtain ⟨⟨⟩, hc, h1⟩ := Res.bind_eq_ok.mp h
        clear h
        rename' h1 => h
        rw [slice_ok (by omega) (by omega), slice_ok (b := d) (i := 40) (j := 72) (by omega) (by omega),
          slice_ok (b := d) (i := 72) (by omega) (by omega)] at h
        simp only [Res.bind_ok] at h
        have hcan := C02_base58_canonical alphabet alphabet_ok t d hd
        obtain ⟨r, hr⟩ : ∃ r, chainPrefix ++ r = d := (cmpPrefix_ok_iff _ _).mp hc
        subst hr
        have l7 : chainPrefix.length = 7 := rfl
        have hlr : r.length = 69 := by rw [List.length_append, l7] at hl'; omega
        have ep : ((chainPrefix ++ r).take 40).drop 7 = r.take 33 := by simp [chainPrefix]
        have ec : ((chainPrefix ++ r).take 72).drop 40 = (r.take 65).drop 33 := by simp [chainPrefix]
        have et : ((chainPrefix ++ r).take (chainPrefix ++ r).length).drop 72 = r.drop 65 := by simp [chainPrefix]
        rw [ep, ec, et] at h
        have hsplit : r = r.take 33 ++ ((r.take 65).drop 33 ++ r.drop 65) := by
          rw [← List.append_assoc]
          conv_lhs => rw [← List.take_append_drop 65 r]
          congr 1
          conv_lhs => rw [← List.take_append_drop 33 (r.take 65)]
          rw [List.take_take]
          simp
        have l1 : (r.take 33).length = 33 := by simp [hlr]
        have l2 : ((r.take 65).drop 33).length = 32 := by simp [hlr]
        have l3 : (r.drop 65).length = 4 := by simp [hlr]
        generalize r.take 33 = pp at *
        generalize (r.take 65).drop 33 = cc at *
        generalize r.drop 65 = cb at *
        subst hsplit
        obtain ⟨z, q, rfl⟩ : ∃ z q, pp = z :: q := by
          cases pp with
          | nil => simp at l1
          | cons z q => exact ⟨z, q, rfl⟩
        have lq : q.length = 32 := by simpa using l1
        have hcb : beBytes 4 (UInt32.ofNat (beNat cb)).toNat = cb := by
          have hlt := beNat_lt cb
          rw [l3] at hlt
          rw [UInt32.toNat_ofNat_of_lt' (by simpa [UInt32.size] using hlt), ← l3]
          exact beBytes_beNat cb
        rw [index_ok (by omega)] at h
        simp only [Res.bind_ok, List.getElem_cons_zero] at h
        by_cases hz : z = 0
        · rw [if_pos hz, slice_ok (by omega) (by omega)] at h
          simp only [Res.bind_ok, Res.ok.injEq] at h
          subst h
          subst hz
          refine ⟨⟨l2, Or.inl (by simpa using lq)⟩, ?_⟩
          unfold chainEncode
          simp only [List.take_length, List.drop_succ_cons, List.drop_zero]
          rw [hcb, if_pos lq]
          simpa using hcan
        · rw [if_neg hz] at h
          simp only [Res.ok.injEq] at h
          subst h
          refine ⟨⟨l2, Or.inr ⟨l1, by simpa using hz⟩⟩, ?_⟩
          unfold chainEncode
          simp only
          rw [hcb, if_neg (by omega)]
          simpa using hcan
  · rintro ⟨⟨hc, hp⟩, he⟩
    obtain ⟨t', h1, _, h2⟩ := C60_owchain_roundtrip ms hc hp
    rw [h1] at he
    cases he
    exact h2

example : chainDecode (asc ("owchain1p95YU6DmiTi2aZfBJYtyrQ2UNpd1nRnzdJfYUovh2hgWHwyRaUijB6UfcCxTzMjE55L7L5fU8mw6WX" ++
    "LpXgsQiYJMRqnHPac")) = .ok ⟨2 :: List.replicate 32 7, List.replicate 32 9, 5⟩ := by decide +kernel

/-- Replacing the last symbol of the Base58 text of a number changes the number by the difference of the symbols. -/
theorem OwKeychain.base58_last (b b' t : Bytes) (j : Nat) (hj : j < 58) (h0 : leadingZeros b = 0)
    (h0' : leadingZeros b' = 0) (hpos : beNat b ≠ 0) (hpos' : beNat b' ≠ 0)
    (hv : beNat b' = beNat b / 58 * 58 + j) (h : Base58.encode alphabet b = .ok t) :
    Base58.encode alphabet b' = .ok (t.dropLast ++ [alphabet[j]?.getD 0]) ∧
      t = t.dropLast ++ [alphabet[beNat b % 58]?.getD 0] := by
  obtain ⟨t1, e1, i1, _⟩ := C01_base58_roundtrip alphabet alphabet_ok b
  obtain ⟨t2, e2, i2, _⟩ := C01_base58_roundtrip alphabet alphabet_ok b'
  rw [h] at e1
  cases e1
  rw [e2]
  have hd : Nat.digits 58 (beNat b) = (beNat b % 58) :: Nat.digits 58 (beNat b / 58) :=
    Nat.digits_def' (by omega) (by omega)
  have hd' : Nat.digits 58 (beNat b') = j :: Nat.digits 58 (beNat b / 58) := by
    rw [Nat.digits_def' (by omega) (by omega), hv]
    congr 2 <;> omega
  have key : ∀ k, k < 58 → alphabet[k]? = some (alphabet[k]?.getD 0) := by
    intro k hk
    have : k < alphabet.length := by rw [alphabet_ok.length]; exact hk
    rw [List.getElem?_eq_getElem this]
    rfl
  unfold IsBase58 base58Digits at i1 i2
  rw [h0, hd] at i1
  rw [h0', hd'] at i2
  simp only [List.replicate_zero, List.nil_append, List.reverse_cons, List.map_append, List.map_cons, List.map_nil]
    at i1 i2
  rw [key _ (Nat.mod_lt _ (by omega))] at i1
  rw [key _ hj] at i2
  generalize (List.map (fun d => alphabet[d]?) (Nat.digits 58 (beNat b / 58)).reverse) = L at *
  have inj : Function.Injective (List.map (some : UInt8 → Option UInt8)) :=
    List.map_injective_iff.mpr (Option.some_injective _)
  have hL : L = t.dropLast.map some := by
    have := congrArg List.dropLast i1
    rw [List.dropLast_concat, ← List.map_dropLast] at this
    exact this.symm
  constructor
  · congr 1
    apply inj
    rw [i2, hL]
    simp
  · apply inj
    rw [i1, hL]
    simp

/-- The part of C60 that fails (a): the text has no checksum. Take any share that can be read back and whose curve
type is not within 58 of the ends of the 32-bit range, and replace the last symbol of its text by any other symbol of
the alphabet: the new text is read without complaint as a share of the same key with another curve type. -/
theorem C60_owchain_no_checksum_violated (ms : MultiSigShare) (hc : ms.chainCode.length = 32)
    (hp : ms.pubkey.length = 32 ∨ (ms.pubkey.length = 33 ∧ ∀ x ∈ ms.pubkey.head?, x ≠ 0))
    (hlo : 58 ≤ ms.curveType.toNat) (hhi : ms.curveType.toNat + 58 ≤ 2 ^ 32) :
    ∃ (p : Bytes) (x : UInt8), chainEncode ms = .ok (p ++ [x]) ∧
      ∀ y ∈ alphabet, y ≠ x → ∃ ms' : MultiSigShare, chainDecode (p ++ [y]) = .ok ms' ∧
        ms'.pubkey = ms.pubkey ∧ ms'.chainCode = ms.chainCode ∧ ms'.curveType ≠ ms.curveType := by
  obtain ⟨pk, cc, ct⟩ := ms
  simp only at hc hp hlo hhi
  obtain ⟨t, ht, _, _⟩ := C60_owchain_roundtrip ⟨pk, cc, ct⟩ hc hp
  obtain ⟨pre, hpre⟩ : ∃ pre, chainPrefix ++ (if pk.length = 32 then [0] else []) ++ pk ++ cc = 0x08 :: pre :=
    ⟨_, rfl⟩
  have hval : ∀ c : UInt32, beNat (0x08 :: pre ++ beBytes 4 c.toNat) = beNat (0x08 :: pre) * 2 ^ 32 + c.toNat := by
    intro c
    rw [beNat_append, beNat_beBytes_of_lt (by have := c.toNat_lt; omega)]
    simp
  have hz : ∀ c : UInt32, leadingZeros (0x08 :: pre ++ beBytes 4 c.toNat) = 0 := by
    intro c; simp [leadingZeros]
  have henc : ∀ c : UInt32, chainEncode ⟨pk, cc, c⟩ = Base58.encode alphabet (0x08 :: pre ++ beBytes 4 c.toNat) := by
    intro c
    unfold chainEncode
    simp only
    rw [hpre]
  generalize hN : beNat (0x08 :: pre) = N at *
  have ht' := ht
  rw [henc] at ht'
  have main : ∀ j, j < 58 → ∃ c : UInt32, c.toNat + (N * 2 ^ 32 + ct.toNat) % 58 = ct.toNat + j ∧
      Base58.encode alphabet (0x08 :: pre ++ beBytes 4 c.toNat) = .ok (t.dropLast ++ [alphabet[j]?.getD 0]) ∧
      t = t.dropLast ++ [alphabet[(N * 2 ^ 32 + ct.toNat) % 58]?.getD 0] := by
    intro j hj
    have hm : (N * 2 ^ 32 + ct.toNat) % 58 < 58 := Nat.mod_lt _ (by omega)
    have hcn : (UInt32.ofNat (ct.toNat - (N * 2 ^ 32 + ct.toNat) % 58 + j)).toNat
        = ct.toNat - (N * 2 ^ 32 + ct.toNat) % 58 + j :=
      UInt32.toNat_ofNat_of_lt' (by simp only [UInt32.size]; omega)
    refine ⟨UInt32.ofNat (ct.toNat - (N * 2 ^ 32 + ct.toNat) % 58 + j), by rw [hcn]; omega, ?_⟩
    have := base58_last (0x08 :: pre ++ beBytes 4 ct.toNat)
      (0x08 :: pre ++ beBytes 4 (UInt32.ofNat (ct.toNat - (N * 2 ^ 32 + ct.toNat) % 58 + j)).toNat) t j hj (hz _) (hz _)
      (by rw [hval]; omega) (by rw [hval, hcn]; omega) (by rw [hval, hval, hcn]; omega) ht'
    rw [hval] at this
    exact this
  obtain ⟨_, _, _, hx⟩ := main 0 (by omega)
  refine ⟨t.dropLast, alphabet[(N * 2 ^ 32 + ct.toNat) % 58]?.getD 0, by rw [← hx]; exact ht, ?_⟩
  intro y hy hne
  obtain ⟨j, hj, rfl⟩ := List.mem_iff_getElem.mp hy
  have hj58 : j < 58 := by rw [alphabet_ok.length] at hj; exact hj
  obtain ⟨c, h1, h2, _⟩ := main j hj58
  refine ⟨⟨pk, cc, c⟩, ?_, rfl, rfl, ?_⟩
  · rw [C60_owchain_language]
    refine ⟨⟨hc, hp⟩, ?_⟩
    rw [henc, h2, List.getElem?_eq_getElem hj]
    rfl
  · rintro rfl
    have : j = (N * 2 ^ 32 + c.toNat) % 58 := by simp only at h1; omega
    apply hne
    rw [← this, List.getElem?_eq_getElem hj]
    rfl

example : ∃ ms : MultiSigShare, ms.chainCode.length = 32 ∧ ms.pubkey.length = 32 ∧ 58 ≤ ms.curveType.toNat ∧
    ms.curveType.toNat + 58 ≤ 2 ^ 32 :=
  ⟨⟨List.replicate 32 7, List.replicate 32 9, 0xECC00000⟩, rfl, rfl, by decide, by decide⟩

/-- The part of C60 that fails (b): a BLS12-381 share (48-byte public key) is encoded to a text that `ChainDecode`
rejects. -/
theorem C60_owchain_bls_violated (ms : MultiSigShare) (hp : ms.pubkey.length = 48) (hc : ms.chainCode.length = 32) :
    ∃ t, chainEncode ms = .ok t ∧ chainDecode t = .err := by
  obtain ⟨t, h1, _, h2⟩ := C01_base58_roundtrip alphabet alphabet_ok
    (chainPrefix ++ (if ms.pubkey.length = 32 then [0] else []) ++ ms.pubkey ++ ms.chainCode ++
      beBytes 4 ms.curveType.toNat)
  refine ⟨t, h1, ?_⟩
  unfold chainDecode
  split
  · rfl
  · rw [h2]
    simp only [Res.bind_ok]
    rw [if_pos (by simp [hp, hc, chainPrefix])]
    rfl

end Verif
