import Verif.Sess.Model
import Verif.Fields.Lemmas

/-!
# C48, C49: access control and the session control connect message
-/

namespace Verif.Sess

open Verif.Fields

/-! ## C49: the connect message on the wire -/

private theorem iDec_enc {k : Nat} {v b rest : Bytes} (h : iEnc k v = .ok b) :
    iDec k (b ++ rest) = .ok (v, rest) := by
  obtain ⟨h1, h2, rfl⟩ := iEnc_ok.mp h
  exact iDec_ok.mpr ⟨h1, h2, rfl⟩

private theorem aDec_enc {k : Nat} {s : List Nat} {b rest : Bytes} (h : aEnc k s = .ok b) :
    aDec k (b ++ rest) = .ok (s, rest) := by
  obtain ⟨h1, h2⟩ := aEnc_ok.mp h
  exact aDec_ok.mpr ⟨_, iDec_enc h2, (latin1Dec_enc h1).symm⟩

private theorem aEnc_ne {k : Nat} {s : List Nat} {b : Bytes} (h : aEnc k s = .ok b) : b ≠ [] := by
  obtain ⟨_, h2⟩ := aEnc_ok.mp h
  obtain ⟨_, _, rfl⟩ := iEnc_ok.mp h2
  simp

/-- A descriptor that means something: a nonzero number or a nonempty name. -/
def EndUser.Valid : EndUser → Prop
  | .num n => n ≠ 0
  | .name s => s ≠ []
  | .full _ _ s => s ≠ []

private theorem first_num (b : UInt8) (n : Int) (rest c : Bytes) (h : bEnc 1 n = .ok c) :
    fromLe ((b :: (c ++ rest)).take 1) = b.toNat ∧ bDec 1 ((b :: (c ++ rest)).drop 1) = .ok (n, rest) := by
  refine ⟨by simp [fromLe], ?_⟩
  exact bDec_enc h

private theorem zero_enc : bEnc 1 0 = .ok [0] := by decide

theorem endUser_roundtrip {e : EndUser} (hv : e.Valid) {b : Bytes} (h : e.encode = .ok b)
    (rest : Bytes) : EndUser.decode (b ++ rest) = .ok (e, rest) := by
  cases e with
  | num n =>
    simp only [EndUser.encode] at h
    obtain ⟨c, hc, hb⟩ := bind_ok.mp h
    simp only [pure_eq_ok, Except.ok.injEq] at hb
    subst hb
    obtain ⟨h1, h2⟩ := first_num 0 n rest c hc
    have h3 : require ((0 :: c) ++ rest) 1 = .ok () := by rw [require_ok]; simp
    unfold EndUser.decode
    rw [h3, ok_bind]
    rw [List.cons_append, h1, h2]
    simp only [ok_bind]
    have : n ≠ 0 := hv
    simp [this]
  | name s =>
    simp only [EndUser.encode] at h
    obtain ⟨c, hc, hb⟩ := bind_ok.mp h
    simp only [pure_eq_ok, Except.ok.injEq] at hb
    subst hb
    obtain ⟨h1, h2⟩ := first_num 1 0 (c ++ rest) [0] zero_enc
    have h3 : require ((1 :: 0 :: c) ++ rest) 1 = .ok () := by rw [require_ok]; simp
    unfold EndUser.decode
    rw [h3, ok_bind]
    have h4 : (1 :: 0 :: c) ++ rest = 1 :: ([0] ++ (c ++ rest)) := rfl
    rw [h4, h1, h2]
    simp only [ok_bind]
    have hs : s ≠ [] := hv
    simp [aDec_enc hc, hs]
  | full g u s =>
    simp only [EndUser.encode] at h
    obtain ⟨cg, hg, h⟩ := bind_ok.mp h
    obtain ⟨cu, hu, h⟩ := bind_ok.mp h
    obtain ⟨c, hc, hb⟩ := bind_ok.mp h
    simp only [pure_eq_ok, Except.ok.injEq] at hb
    subst hb
    obtain ⟨h1, h2⟩ := first_num 2 0 (cg ++ (cu ++ (c ++ rest))) [0] zero_enc
    have h3 : require ((2 :: 0 :: (cg ++ cu ++ c)) ++ rest) 1 = .ok () := by rw [require_ok]; simp
    unfold EndUser.decode
    rw [h3, ok_bind]
    have h4 : (2 :: 0 :: (cg ++ cu ++ c)) ++ rest = 2 :: ([0] ++ (cg ++ (cu ++ (c ++ rest)))) := by
      simp
    rw [h4, h1, h2]
    simp only [ok_bind]
    have hs : s ≠ [] := hv
    simp [aDec_enc hc, bDec_enc hg, bDec_enc hu, hs]

private theorem flags_dec {a u p c r v : Nat} {f : Bytes} (h : flagsEnc a u p c r v = .ok f) :
    ∃ x : UInt8, f = [x] ∧ x.toNat / 128 = 0 ∧ x.toNat % 2 = a ∧ x.toNat / 2 % 2 = u ∧
      x.toNat / 4 % 2 = p ∧ x.toNat / 8 % 2 = c ∧ x.toNat / 16 % 2 = r ∧ x.toNat / 32 % 4 = v := by
  unfold flagsEnc at h
  split at h
  · rename_i hb
    injection h with h
    refine ⟨_, h.symm, ?_⟩
    rw [ofNat_toNat_lt (by omega)]
    omega
  · cases h

private theorem check_enc {m : ConnInit} {au ud : Nat × Bytes} (ha : authPart m = .ok au)
    (hd : dataPart m = .ok ud) :
    checkOpt au.1 ud.1 (au.2 ++ ud.2) = .ok (m.user, m.password, m.account, m.data) := by
  -- user data
  have h1 : ∀ rest, ud.1 ≠ 0 → ∃ d, iDec 16 (ud.2 ++ rest) = .ok d ∧ d.1 = m.data := by
    intro rest hne
    unfold dataPart at hd
    split at hd
    · obtain ⟨d, hd1, hd2⟩ := bind_ok.mp hd
      simp only [pure_eq_ok, Except.ok.injEq] at hd2
      subst hd2
      exact ⟨_, iDec_enc hd1, rfl⟩
    · simp only [Except.ok.injEq] at hd
      subst hd
      exact absurd rfl hne
  have h2 : ud.1 = 0 → m.data = [] ∧ ud.2 = [] := by
    intro he
    unfold dataPart at hd
    split at hd
    · obtain ⟨d, hd1, hd2⟩ := bind_ok.mp hd
      simp only [pure_eq_ok, Except.ok.injEq] at hd2
      subst hd2
      cases he
    · rename_i hn
      simp only [Except.ok.injEq] at hd
      subst hd
      exact ⟨Classical.not_not.mp hn, rfl⟩
  have h3 : ∀ rest, ud.2 = rest → checkData ud.1 rest = .ok m.data := by
    rintro rest rfl
    unfold checkData
    split
    · rename_i hne
      obtain ⟨d, hd1, hd2⟩ := h1 [] hne
      rw [List.append_nil] at hd1
      rw [hd1, map_of_ok, hd2]
    · rename_i he
      rw [(h2 (Classical.not_not.mp he)).1]
  have h4 : ud.1 ≠ 0 → ud.2 ≠ [] := by
    intro hne he
    obtain ⟨d, hd1, _⟩ := h1 [] hne
    rw [he] at hd1
    cases hd1
  unfold authPart at ha
  split at ha
  · obtain ⟨r, hr, ha⟩ := bind_ok.mp ha
    obtain ⟨p, hp, ha⟩ := bind_ok.mp ha
    obtain ⟨a, haa, ha⟩ := bind_ok.mp ha
    simp only [pure_eq_ok, Except.ok.injEq] at ha
    subst ha
    have hne : (r ++ p ++ a) ++ ud.2 ≠ [] := by
      have := aEnc_ne hr
      simp [this]
    have hauth : checkAuth 1 ((r ++ p ++ a) ++ ud.2) =
        .ok (m.user, m.password, m.account, ud.2) := by
      unfold checkAuth
      rw [if_pos (by decide)]
      simp only [List.append_assoc]
      simp [aDec_enc hr, aDec_enc hp, aDec_enc haa]
    unfold checkOpt
    rw [if_pos hne]
    show (checkAuth 1 ((r ++ p ++ a) ++ ud.2) >>= _) = _
    rw [hauth]
    simp [h3 _ rfl]
  · rename_i hn
    simp only [Except.ok.injEq] at ha
    subst ha
    have hu : m.user = [] ∧ m.password = [] ∧ m.account = [] := by
      refine ⟨?_, ?_, ?_⟩ <;> apply Classical.byContradiction <;> intro hc <;> apply hn <;> simp [hc]
    obtain ⟨u1, u2, u3⟩ := hu
    rw [u1, u2, u3]
    simp only [List.nil_append]
    unfold checkOpt
    by_cases he : ud.2 = []
    · rw [if_neg (by simp [he])]
      have hz : ud.1 = 0 := Classical.byContradiction fun hc => h4 hc he
      simp [hz, (h2 hz).1]
    · rw [if_pos he]
      simp [checkAuth, h3 _ rfl]

/-- **C49.**  A connect message that can be encoded decodes to exactly what it was encoded from:
both descriptors, the access control strings, the user data and the flags. -/
theorem connect_roundtrip {m : ConnInit} (hd : m.dst.Valid) (hs : m.src.Valid) {b : Bytes}
    (h : m.encode = .ok b) : ConnInit.decode b = .ok m := by
  unfold ConnInit.encode at h
  obtain ⟨au, hau, h⟩ := bind_ok.mp h
  obtain ⟨ud, hud, h⟩ := bind_ok.mp h
  obtain ⟨d, hd', h⟩ := bind_ok.mp h
  obtain ⟨s, hs', h⟩ := bind_ok.mp h
  obtain ⟨f, hf, h⟩ := bind_ok.mp h
  simp only [pure_eq_ok, Except.ok.injEq] at h
  subst h
  obtain ⟨x, rfl, x1, x2, x3, x4, x5, x6, x7⟩ := flags_dec hf
  unfold ConnInit.decode
  have e : d ++ s ++ [x] ++ (au.2 ++ ud.2) = d ++ (s ++ (x :: (au.2 ++ ud.2))) := by simp
  have hreq : require (x :: (au.2 ++ ud.2)) 1 = .ok () := by rw [require_ok]; simp
  have hfl : fromLe ((x :: (au.2 ++ ud.2)).take 1) = x.toNat := by simp [fromLe]
  rw [e, endUser_roundtrip hd hd']
  simp only [ok_bind]
  rw [endUser_roundtrip hs hs']
  simp only [ok_bind]
  rw [hreq, hfl]
  simp only [ok_bind, x1, x2, x3, x4, x5, x6, x7, List.drop_succ_cons, List.drop_zero]
  rw [check_enc hau hud]
  simp

/-- A text that fits a field: latin-1 characters, at most `k` of them. -/
def Fits (k : Nat) (s : List Nat) : Prop := (∀ c ∈ s, c < 256) ∧ s.length ≤ k

/-- What a descriptor may contain. -/
def EndUser.Fits : EndUser → Prop
  | .num n => n < 256
  | .name s => Sess.Fits 16 s
  | .full g u s => g < 65536 ∧ u < 65536 ∧ Sess.Fits 16 s

private theorem aEnc_fits {k : Nat} (hk : k < 256) (s : List Nat) :
    (∃ b, aEnc k s = .ok b) ↔ Fits k s := by
  constructor
  · rintro ⟨b, h⟩
    obtain ⟨h1, h2⟩ := aEnc_ok.mp h
    obtain ⟨h3, _, _⟩ := iEnc_ok.mp h2
    exact ⟨h1, by simpa using h3⟩
  · rintro ⟨h1, h2⟩
    exact ⟨_, aEnc_ok.mpr ⟨h1, iEnc_ok.mpr ⟨by simpa using h2, by simp; omega, rfl⟩⟩⟩

private theorem bEnc_fits (k : Nat) (n : Nat) : (∃ b, bEnc k n = .ok b) ↔ n < 256 ^ k := by
  unfold bEnc
  constructor
  · rintro ⟨b, h⟩
    obtain ⟨_, h2, _⟩ := toBytes_ok.mp h
    exact_mod_cast h2
  · intro h
    exact ⟨_, toBytes_ok.mpr ⟨by omega, by exact_mod_cast h, rfl⟩⟩

theorem endUser_encodes_iff (e : EndUser) : (∃ b, e.encode = .ok b) ↔ e.Fits := by
  cases e with
  | num n =>
    have := bEnc_fits 1 n
    simp only [EndUser.encode, bind_ok, EndUser.Fits]
    constructor
    · rintro ⟨b, c, hc, _⟩; simpa using this.mp ⟨c, hc⟩
    · intro h; obtain ⟨c, hc⟩ := this.mpr (by simpa using h); exact ⟨_, c, hc, rfl⟩
  | name s =>
    have := aEnc_fits (k := 16) (by omega) s
    simp only [EndUser.encode, bind_ok, EndUser.Fits]
    constructor
    · rintro ⟨b, c, hc, _⟩; exact this.mp ⟨c, hc⟩
    · intro h; obtain ⟨c, hc⟩ := this.mpr h; exact ⟨_, c, hc, rfl⟩
  | full g u s =>
    have h1 := bEnc_fits 2 g
    have h2 := bEnc_fits 2 u
    have h3 := aEnc_fits (k := 16) (by omega) s
    simp only [EndUser.encode, bind_ok, EndUser.Fits]
    constructor
    · rintro ⟨b, cg, hg, cu, hu, c, hc, _⟩
      exact ⟨by simpa using h1.mp ⟨cg, hg⟩, by simpa using h2.mp ⟨cu, hu⟩, h3.mp ⟨c, hc⟩⟩
    · rintro ⟨a1, a2, a3⟩
      obtain ⟨cg, hg⟩ := h1.mpr (by simpa using a1)
      obtain ⟨cu, hu⟩ := h2.mpr (by simpa using a2)
      obtain ⟨c, hc⟩ := h3.mpr a3
      exact ⟨_, cg, hg, cu, hu, c, hc, rfl⟩

/-- **C49, what can be sent.**  Encoding succeeds exactly if every part fits its field. -/
theorem connect_encodes_iff (m : ConnInit) : (∃ b, m.encode = .ok b) ↔
    m.dst.Fits ∧ m.src.Fits ∧ Fits 39 m.user ∧ Fits 39 m.password ∧ Fits 39 m.account ∧
    m.data.length ≤ 16 ∧ m.proxy < 2 ∧ m.proxyUic < 2 ∧ m.reserved < 2 ∧ m.scver < 4 := by
  have hfn : ∀ s : List Nat, s = [] → Fits 39 s := by rintro _ rfl; exact ⟨by simp, by simp⟩
  have hA : (∃ au, authPart m = .ok au) ↔ Fits 39 m.user ∧ Fits 39 m.password ∧ Fits 39 m.account := by
    unfold authPart
    split
    · simp only [bind_ok]
      constructor
      · rintro ⟨_, r, hr, p, hp, a, ha, _⟩
        exact ⟨(aEnc_fits (by omega) _).mp ⟨r, hr⟩, (aEnc_fits (by omega) _).mp ⟨p, hp⟩,
          (aEnc_fits (by omega) _).mp ⟨a, ha⟩⟩
      · rintro ⟨h1, h2, h3⟩
        obtain ⟨r, hr⟩ := (aEnc_fits (by omega) _).mpr h1
        obtain ⟨p, hp⟩ := (aEnc_fits (by omega) _).mpr h2
        obtain ⟨a, ha⟩ := (aEnc_fits (by omega) _).mpr h3
        exact ⟨_, r, hr, p, hp, a, ha, rfl⟩
    · rename_i hn
      have hu : m.user = [] ∧ m.password = [] ∧ m.account = [] := by
        refine ⟨?_, ?_, ?_⟩ <;> apply Classical.byContradiction <;> intro hc <;> apply hn <;> simp [hc]
      exact ⟨fun _ => ⟨hfn _ hu.1, hfn _ hu.2.1, hfn _ hu.2.2⟩, fun _ => ⟨_, rfl⟩⟩
  have hD : (∃ ud, dataPart m = .ok ud) ↔ m.data.length ≤ 16 := by
    unfold dataPart
    split
    · simp only [bind_ok]
      constructor
      · rintro ⟨_, d, hd, _⟩; exact (iEnc_ok.mp hd).1
      · intro h; exact ⟨_, _, iEnc_ok.mpr ⟨h, by omega, rfl⟩, rfl⟩
    · rename_i hn
      have : m.data = [] := Classical.not_not.mp hn
      simp [this]
  have hA1 : ∀ au, authPart m = .ok au → au.1 < 2 := by
    intro au h
    unfold authPart at h
    split at h
    · obtain ⟨r, _, h⟩ := bind_ok.mp h
      obtain ⟨p, _, h⟩ := bind_ok.mp h
      obtain ⟨a, _, h⟩ := bind_ok.mp h
      simp only [pure_eq_ok, Except.ok.injEq] at h
      subst h; show 1 < 2; omega
    · simp only [Except.ok.injEq] at h; subst h; decide
  have hD1 : ∀ ud, dataPart m = .ok ud → ud.1 < 2 := by
    intro ud h
    unfold dataPart at h
    split at h
    · obtain ⟨r, _, h⟩ := bind_ok.mp h
      simp only [pure_eq_ok, Except.ok.injEq] at h
      subst h; show 1 < 2; omega
    · simp only [Except.ok.injEq] at h; subst h; decide
  unfold ConnInit.encode
  simp only [bind_ok]
  constructor
  · rintro ⟨_, au, hau, ud, hud, d, hd, s, hs, f, hf, _⟩
    have hfl : m.proxy < 2 ∧ m.proxyUic < 2 ∧ m.reserved < 2 ∧ m.scver < 4 := by
      unfold flagsEnc at hf
      split at hf
      · rename_i h; exact h.2.2
      · cases hf
    obtain ⟨a1, a2, a3⟩ := hA.mp ⟨au, hau⟩
    exact ⟨(endUser_encodes_iff _).mp ⟨d, hd⟩, (endUser_encodes_iff _).mp ⟨s, hs⟩, a1, a2, a3,
      hD.mp ⟨ud, hud⟩, hfl⟩
  · rintro ⟨h1, h2, h3, h4, h5, h6, h7⟩
    obtain ⟨au, hau⟩ := hA.mpr ⟨h3, h4, h5⟩
    obtain ⟨ud, hud⟩ := hD.mpr h6
    obtain ⟨d, hd⟩ := (endUser_encodes_iff _).mpr h1
    obtain ⟨s, hs⟩ := (endUser_encodes_iff _).mpr h2
    have hf : ∃ f, flagsEnc au.1 ud.1 m.proxy m.proxyUic m.reserved m.scver = .ok f := by
      unfold flagsEnc
      rw [if_pos ⟨hA1 _ hau, hD1 _ hud, h7⟩]
      exact ⟨_, rfl⟩
    obtain ⟨f, hf⟩ := hf
    exact ⟨_, au, hau, ud, hud, d, hd, s, hs, f, hf, rfl⟩

/-- A connect to object 17 by user "joe" with three bytes of user data. -/
example : ∃ b, (ConnInit.encode ⟨.num 17, .full 1 300 [65, 66], 0, 0, 0, 1, [106, 111, 101], [120], [],
    [1, 2, 3]⟩) = .ok b ∧ ConnInit.decode b = .ok ⟨.num 17, .full 1 300 [65, 66], 0, 0, 0, 1,
    [106, 111, 101], [120], [], [1, 2, 3]⟩ ∧ b.length = 23 := by
  refine ⟨[0, 17, 2, 0, 1, 0, 44, 1, 2, 65, 66, 35, 3, 106, 111, 101, 1, 120, 0, 3, 1, 2, 3], ?_⟩
  decide

/-! ## C48: access control -/

/-- The access rule, stated on its own: who may use an object.

* no check for the object;
* user name and password were supplied, the host accepts them, and in login mode the user exists;
* in login mode with a default user (not root), no complete credentials were supplied. -/
def Permitted {A : Type} (env : Env A) (o : Obj A) (m : ConnInit) : Prop :=
  o.auth = .off ∨
  (m.user ≠ [] ∧ m.password ≠ [] ∧ env.pam (env.lower m.user) m.password = true ∧
    (o.auth = .login → ∃ pw, env.getpw (env.lower m.user) = some pw)) ∨
  (o.auth = .login ∧ (m.user = [] ∨ m.password = []) ∧ ∃ u, o.uid = some u ∧ u ≠ 0)

/-- The object a descriptor names. -/
def Names {A : Type} (env : Env A) (d : EndUser) (o : Obj A) : Prop :=
  match d with
  | .num n => env.objNum n = some o
  | .name s => env.objName (env.upper s) = some o
  | .full _ _ s => env.objName (env.upper s) = some o

theorem decode_valid {b : Bytes} {m : ConnInit} (h : ConnInit.decode b = .ok m) :
    m.dst.Valid ∧ m.src.Valid := by
  have key : ∀ {b r : Bytes} {e : EndUser}, EndUser.decode b = .ok (e, r) → e.Valid := by
    intro b r e h
    unfold EndUser.decode at h
    obtain ⟨_, _, h⟩ := bind_ok.mp h
    obtain ⟨⟨n, buf⟩, hn, h⟩ := bind_ok.mp h
    obtain ⟨hn0, _, _⟩ := bDec_ok.mp hn
    simp only at h
    split at h
    · split at h
      · cases h
      · rename_i hne
        simp only [pure_eq_ok, Except.ok.injEq, Prod.mk.injEq] at h
        obtain ⟨rfl, _⟩ := h
        show n.toNat ≠ 0
        omega
    · split at h
      · split at h
        · cases h
        · obtain ⟨⟨s, buf⟩, _, h⟩ := bind_ok.mp h
          simp only at h
          split at h
          · cases h
          · rename_i hne
            simp only [pure_eq_ok, Except.ok.injEq, Prod.mk.injEq] at h
            obtain ⟨rfl, _⟩ := h
            exact hne
      · split at h
        · split at h
          · cases h
          · obtain ⟨⟨g, buf⟩, _, h⟩ := bind_ok.mp h
            obtain ⟨⟨u, buf⟩, _, h⟩ := bind_ok.mp h
            obtain ⟨⟨s, buf⟩, _, h⟩ := bind_ok.mp h
            simp only at h
            split at h
            · cases h
            · rename_i hne
              simp only [pure_eq_ok, Except.ok.injEq, Prod.mk.injEq] at h
              obtain ⟨rfl, _⟩ := h
              exact hne
        · cases h
  unfold ConnInit.decode at h
  obtain ⟨⟨d, b1⟩, hd, h⟩ := bind_ok.mp h
  obtain ⟨⟨s, b2⟩, hs, h⟩ := bind_ok.mp h
  obtain ⟨_, _, h⟩ := bind_ok.mp h
  simp only at h
  split at h
  · cases h
  · obtain ⟨⟨r, p, a, dd⟩, _, h⟩ := bind_ok.mp h
    simp only [pure_eq_ok, Except.ok.injEq] at h
    subst h
    exact ⟨key hd, key hs⟩

private theorem findObj_iff {A : Type} (env : Env A) {d : EndUser} (hd : d.Valid) (o : Obj A) :
    findObj env d = some o ↔ Names env d o := by
  cases d with
  | num n =>
    have : n ≠ 0 := hd
    simp [findObj, Names, EndUser.objNum, this]
  | name s => simp [findObj, Names, EndUser.objNum, EndUser.objName]
  | full g u s => simp [findObj, Names, EndUser.objNum, EndUser.objName]

private theorem permitted_iff {A : Type} (env : Env A) (o : Obj A) (m : ConnInit) :
    Permitted env o m ↔ o.auth = .off ∨ (authenticate env o m).1 = true := by
  unfold Permitted authenticate
  by_cases hoff : o.auth = .off
  · simp [hoff]
  simp only [hoff, false_or]
  by_cases he : m.user = [] ∨ m.password = []
  · rw [if_pos he]
    have hne : ¬ (m.user ≠ [] ∧ m.password ≠ []) := by
      rintro ⟨h1, h2⟩; rcases he with h | h <;> contradiction
    simp only [Bool.and_eq_true, beq_iff_eq, decide_eq_true_eq]
    constructor
    · rintro (⟨h1, h2, _⟩ | ⟨h1, _, u, h3, h4⟩)
      · exact absurd ⟨h1, h2⟩ hne
      · refine ⟨h1, by simp [h3], by simp [h3, h4]⟩
    · rintro ⟨h1, h2, h3⟩
      right
      refine ⟨h1, he, ?_⟩
      cases hu : o.uid with
      | none => exact absurd hu h2
      | some u => exact ⟨u, rfl, fun h => h3 (by rw [hu, h])⟩
  · rw [if_neg he]
    have hne : m.user ≠ [] ∧ m.password ≠ [] := ⟨fun h => he (.inl h), fun h => he (.inr h)⟩
    by_cases hl : o.auth = .login
    · rw [if_pos hl]
      cases hp : env.getpw (env.lower m.user) with
      | none => simp [hl, he]
      | some pw => simp [hne.1, hne.2]
    · rw [if_neg hl]
      simp [hne.1, hne.2, hl]

/-- **C48.**  An application is started for an incoming connect exactly if the connect data is a
valid connect message, names an object, and the object may be used with the credentials in it.  The
application is that of the object. -/
theorem started_iff {A : Type} (env : Env A) (b : Bytes) (a : A) :
    (∃ s, incoming env b = .started s ∧ s.app = a) ↔
    b ≠ [] ∧ ∃ m o, ConnInit.decode b = .ok m ∧ Names env m.dst o ∧ Permitted env o m ∧ o.app = a := by
  unfold incoming
  by_cases hb : b = []
  · simp [hb]
  rw [if_neg hb]
  cases hd : ConnInit.decode b with
  | error e => simp
  | ok m =>
    have hv := (decode_valid hd).1
    cases hf : findObj env m.dst with
    | none =>
      simp only [hf, reduceCtorEq, false_and, exists_false, false_iff, Except.ok.injEq]
      rintro ⟨_, m', o, rfl, h2, _⟩
      rw [← findObj_iff env hv, hf] at h2
      cases h2
    | some o =>
      have hn := (findObj_iff env hv o).mp hf
      have huniq : ∀ o', Names env m.dst o' → o' = o := by
        intro o' h
        rw [← findObj_iff env hv, hf] at h
        exact (Option.some.inj h).symm
      have hR : (b ≠ [] ∧ ∃ m' o', Except.ok (ε := Err) m = .ok m' ∧ Names env m'.dst o' ∧
          Permitted env o' m' ∧ o'.app = a) ↔ Permitted env o m ∧ o.app = a := by
        constructor
        · rintro ⟨_, m', o', hm, h2, h3, h4⟩
          injection hm with hm
          subst hm
          have := huniq o' h2
          subst this
          exact ⟨h3, h4⟩
        · rintro ⟨h1, h2⟩; exact ⟨hb, m, o, rfl, hn, h1, h2⟩
      rw [hR, permitted_iff]
      simp only [hf]
      by_cases hoff : o.auth = .off
      · simp [hoff]
      · simp only [hoff, if_false, false_or]
        cases hr : (authenticate env o m).1 <;> simp

/-- **C48, what happens otherwise.**  Every connect message with data is either given to an
application or rejected, with a reason that says why: format error, no such object, or access
denied. -/
theorem rejected_iff {A : Type} (env : Env A) (b : Bytes) (hb : b ≠ []) (r : Nat) :
    incoming env b = .rejected r ↔
    ((∃ e, ConnInit.decode b = .error e) ∧ r = 5) ∨
    (∃ m, ConnInit.decode b = .ok m ∧ (¬ ∃ o, Names env m.dst o) ∧ r = 4) ∨
    (∃ m o, ConnInit.decode b = .ok m ∧ Names env m.dst o ∧ ¬ Permitted env o m ∧ r = 34) := by
  unfold incoming
  rw [if_neg hb]
  cases hd : ConnInit.decode b with
  | error e => simp [badFmt, eq_comm]
  | ok m =>
    have hv := (decode_valid hd).1
    cases hf : findObj env m.dst with
    | none =>
      have hno : ¬ ∃ o, Names env m.dst o := by
        rintro ⟨o, h⟩
        rw [← findObj_iff env hv, hf] at h
        cases h
      constructor
      · intro h
        simp only [hf, Outcome.rejected.injEq, noObj] at h
        exact .inr (.inl ⟨m, rfl, hno, h.symm⟩)
      · rintro (⟨⟨e, h⟩, _⟩ | ⟨m', h, _, rfl⟩ | ⟨m', o, h, h2, _⟩)
        · cases h
        · simp only [hf, noObj]
        · injection h with h; subst h; exact absurd ⟨o, h2⟩ hno
    | some o =>
      have hn := (findObj_iff env hv o).mp hf
      have huniq : ∀ o', Names env m.dst o' → o' = o := by
        intro o' h
        rw [← findObj_iff env hv, hf] at h
        exact (Option.some.inj h).symm
      have hR : (((∃ e, Except.ok (ε := Err) m = .error e) ∧ r = 5) ∨
          (∃ m', Except.ok (ε := Err) m = .ok m' ∧ (¬ ∃ o, Names env m'.dst o) ∧ r = 4) ∨
          (∃ m' o', Except.ok (ε := Err) m = .ok m' ∧ Names env m'.dst o' ∧ ¬ Permitted env o' m' ∧
            r = 34)) ↔ ¬ Permitted env o m ∧ r = 34 := by
        constructor
        · rintro (⟨⟨e, h⟩, _⟩ | ⟨m', h, h2, _⟩ | ⟨m', o', h, h2, h3, h4⟩)
          · cases h
          · injection h with h; subst h; exact absurd ⟨o, hn⟩ h2
          · injection h with h; subst h
            have := huniq o' h2
            subst this
            exact ⟨h3, h4⟩
        · rintro ⟨h1, h2⟩; exact .inr (.inr ⟨m, o, rfl, hn, h1, h2⟩)
      rw [hR, permitted_iff]
      simp only [hf]
      by_cases hoff : o.auth = .off
      · simp [hoff]
      · simp only [hoff, if_false, false_or]
        cases hr : (authenticate env o m).1 <;> simp [badAuth, eq_comm]

/-- **C48, whose rights.**  A started application runs with the rights of the host user who was
authenticated if the object uses login mode and credentials were supplied, and otherwise with those
configured for the object.  It is told the user name and account of a checked connect, the
descriptors and the user data, but never the password. -/
theorem started_rights {A : Type} (env : Env A) (b : Bytes) (s : Start A)
    (h : incoming env b = .started s) :
    ∃ m o, ConnInit.decode b = .ok m ∧ Names env m.dst o ∧
      s.src = m.src ∧ s.dst = m.dst ∧ s.data = m.data ∧
      (o.auth = .login ∧ m.user ≠ [] ∧ m.password ≠ [] →
        ∃ pw, env.getpw (env.lower m.user) = some pw ∧
          env.pam (env.lower m.user) m.password = true ∧
          s.uid = some pw.uid ∧ s.gid = pw.gid ∧ s.root = some pw.dir) ∧
      (¬ (o.auth = .login ∧ m.user ≠ [] ∧ m.password ≠ []) →
        s.uid = o.uid ∧ s.gid = o.gid ∧ s.root = o.root) ∧
      (o.auth = .off → s.username = none ∧ s.account = none) ∧
      (o.auth ≠ .off → s.username = entry m.user ∧ s.account = entry m.account) := by
  unfold incoming at h
  split at h
  · cases h
  cases hd : ConnInit.decode b with
  | error e => rw [hd] at h; cases h
  | ok m =>
    rw [hd] at h
    simp only at h
    have hv := (decode_valid hd).1
    cases hf : findObj env m.dst with
    | none => rw [hf] at h; cases h
    | some o =>
      rw [hf] at h
      simp only at h
      refine ⟨m, o, rfl, (findObj_iff env hv o).mp hf, ?_⟩
      by_cases hoff : o.auth = .off
      · rw [if_pos hoff] at h
        injection h with h
        subst h
        refine ⟨rfl, rfl, rfl, ?_, fun _ => ⟨rfl, rfl, rfl⟩, fun _ => ⟨rfl, rfl⟩, fun hc => absurd hoff hc⟩
        rintro ⟨hl, _⟩
        rw [hoff] at hl; cases hl
      · rw [if_neg hoff] at h
        split at h
        · rename_i hok
          injection h with h
          subst h
          refine ⟨rfl, rfl, rfl, ?_, ?_, fun hc => absurd hc hoff, fun _ => ⟨rfl, rfl⟩⟩
          · rintro ⟨hl, hu, hp⟩
            have he : ¬ (m.user = [] ∨ m.password = []) := by
              rintro (h | h) <;> contradiction
            unfold authenticate at hok ⊢
            rw [if_neg he, if_pos hl] at hok ⊢
            cases hg : env.getpw (env.lower m.user) with
            | none => rw [hg] at hok; cases hok
            | some pw =>
              rw [hg] at hok
              exact ⟨pw, rfl, hok, rfl, rfl, rfl⟩
          · intro hn
            unfold authenticate
            by_cases he : m.user = [] ∨ m.password = []
            · rw [if_pos he]; exact ⟨rfl, rfl, rfl⟩
            · rw [if_neg he]
              have hl : ¬ o.auth = .login := by
                intro hl
                exact hn ⟨hl, fun h => he (.inl h), fun h => he (.inr h)⟩
              rw [if_neg hl]; exact ⟨rfl, rfl, rfl⟩
        · cases h

/-- **Finding.**  A connect message without connect data stops the node, whatever objects there are:
the constructor of the packet class does not decode an empty buffer, and the attribute access that
follows raises. -/
theorem empty_connect_raises {A : Type} (env : Env A) (b : Bytes) :
    incoming env b = .raised ↔ b = [] := by
  constructor
  · intro h
    apply Classical.byContradiction
    intro hb
    unfold incoming at h
    rw [if_neg hb] at h
    split at h
    · cases h
    · split at h
      · cases h
      · split at h
        · cases h
        · simp only at h
          split at h <;> cases h
  · rintro rfl; rfl

/-- An object with login access and no default user: the right password starts the application with
the rights of the user, a wrong one is rejected, and so is a connect without credentials. -/
def sample : Env Nat where
  objNum n := if n = 17 then some ⟨7, .login, none, 0, none⟩ else none
  objName _ := none
  getpw s := if s = [106] then some ⟨1000, 100, [47]⟩ else none
  pam u p := u = [106] ∧ p = [120]
  lower := id
  upper := id

example : incoming sample [0, 17, 1, 0, 1, 65, 1, 1, 106, 1, 120, 0] =
    .started ⟨7, some 1000, 100, some [47], some [106], true, none, .name [65], .num 17, []⟩ := by decide
example : incoming sample [0, 17, 1, 0, 1, 65, 1, 1, 106, 1, 121, 0] = .rejected 34 := by decide
example : incoming sample [0, 17, 1, 0, 1, 65, 0] = .rejected 34 := by decide
example : incoming sample [0, 18, 1, 0, 1, 65, 0] = .rejected 4 := by decide
example : incoming sample [3, 18, 1, 0, 1, 65, 0] = .rejected 5 := by decide

/-- C48: a connect message with the reserved bit of its flags set is not accepted, whatever the rest. -/
theorem reserved_bit_rejected {b b1 b2 : Bytes} {d s : EndUser} {f : UInt8}
    (hd : EndUser.decode b = .ok (d, b1)) (hs : EndUser.decode b1 = .ok (s, f :: b2)) (hf : 128 ≤ f.toNat) :
    ConnInit.decode b = .error .wrongValue := by
  have h : fromLe [f] / 128 ≠ 0 := by
    have : fromLe [f] = f.toNat := by simp [fromLe]
    rw [this]; omega
  have hf1 : ([f] ++ b2).take 1 = [f] := rfl
  simp only [ConnInit.decode, hd, hs, bind, Except.bind]
  simp only [require, List.length_cons, List.take_succ_cons, List.take_zero]
  simp [h]

end Verif.Sess
