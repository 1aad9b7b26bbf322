import Verif.MopId.Heard

/-!
# C119, C120: the requests and the time, byte by byte
-/

namespace Verif.MopId

theorem take2 {b x y : Bytes} {n : Nat} (h : take? n b = some (x, y)) : x.length = n ∧ b = x ++ y := by
  unfold take? at h
  split at h
  · cases h
  · injection h with h; injection h with h1 h2
    subst h1; subst h2
    exact ⟨by rw [List.length_take]; omega, (List.take_append_drop n b).symm⟩

/-- The messages that ask for the identification: code 5, a reserved byte with any value, the number of
the request, low byte first, and nothing else. -/
theorem request_id_bytes (b : Bytes) (r : Nat) : parse b = some (.requestId r) ↔
    ∃ x lo hi : UInt8, b = [5, x, lo, hi] ∧ r = lo.toNat + 256 * hi.toNat := by
  constructor
  · intro h
    unfold parse at h
    split at h <;> try simp only [Option.bind_eq_some_iff, Option.map_eq_some_iff, exact] at h
    case h_3 r' =>
      obtain ⟨x, hx, y, hy, h⟩ := h
      split at h
      · next he =>
        injection h with h; injection h with h
        obtain ⟨x1, x2⟩ := take2 hx
        obtain ⟨y1, y2⟩ := take2 hy
        rw [he, List.append_nil] at y2
        rw [y2] at x2
        match x, x1, y, y1 with
        | ([a], _), _, ([p, q], _), _ =>
          refine ⟨a, p, q, by rw [x2]; rfl, ?_⟩
          rw [← h]; simp only [fromLe]; omega
      · cases h
    all_goals first
      | (cases h; done)
      | (exfalso; revert h; simp)
  · rintro ⟨x, lo, hi, rfl, rfl⟩
    simp [parse, take?, exact, fromLe]

example : parse [5, 9, 0x34, 0x12] = some (.requestId 0x1234) :=
  (request_id_bytes _ _).mpr ⟨9, 0x34, 0x12, rfl, rfl⟩

/-- The messages that ask for the counters: code 9 and the number of the request. -/
theorem request_counters_bytes (b : Bytes) (r : Nat) : parse b = some (.requestCounters r) ↔
    ∃ lo hi : UInt8, b = [9, lo, hi] ∧ r = lo.toNat + 256 * hi.toNat := by
  constructor
  · intro h
    unfold parse at h
    split at h <;> try simp only [Option.bind_eq_some_iff, Option.map_eq_some_iff, exact] at h
    case h_4 r' =>
      obtain ⟨y, hy, h⟩ := h
      split at h
      · next he =>
        injection h with h; injection h with h
        obtain ⟨y1, y2⟩ := take2 hy
        rw [he, List.append_nil] at y2
        match y, y1 with
        | ([p, q], _), _ =>
          refine ⟨p, q, by rw [y2], ?_⟩
          rw [← h]; simp only [fromLe]; omega
      · cases h
    all_goals first
      | (cases h; done)
      | (exfalso; revert h; simp)
  · rintro ⟨lo, hi, rfl, rfl⟩
    simp [parse, take?, exact, fromLe]

example : parse [9, 0x34, 0x12] = some (.requestCounters 0x1234) :=
  (request_counters_bytes _ _).mpr ⟨0x34, 0x12, rfl, rfl⟩

/-- A time in a message is read as century and year of the century (or years since 1900 if the century
is zero), month, day, hour, minute, second, and, as the zone, hours and minutes east of Greenwich, each
with its own sign. -/
theorem time_read (x lo hi ce yr mo da ho mi se hu zh zm : UInt8) :
    ∃ m t, parse (7 :: x :: lo :: hi :: 8 :: 0 :: 10 :: [ce, yr, mo, da, ho, mi, se, hu, zh, zm]) =
        some (.sysId m) ∧ m.time = some t ∧ m.receipt = lo.toNat + 256 * hi.toNat ∧
      (t.year : Nat) = (if ce = 0 then 1900 else 100 * ce.toNat) + yr.toNat ∧
      t.mon = mo.toNat ∧ t.mday = da.toNat ∧ t.hour = ho.toNat ∧ t.min = mi.toNat ∧ t.sec = se.toNat ∧
      t.tz = 3600 * zh.toInt8.toInt + 60 * zm.toInt8.toInt := by
  have hs : ∀ u : UInt8, signed u = u.toInt8.toInt := by
    intro u
    have hu := u.toNat_lt
    unfold signed
    rw [← Int8.toInt_toBitVec, UInt8.toBitVec_toInt8, BitVec.toInt_eq_toNat_cond, UInt8.toNat_toBitVec]
    split <;> split <;> omega
  refine ⟨_, _, by simp [parse, take?, decItems, decItem, decTime]; rfl, rfl, ?_, ?_, rfl, rfl, rfl, rfl, rfl, ?_⟩
  · simp [fromLe]
  · by_cases h : ce = 0
    · subst h; simp
    · have : ce.toNat ≠ 0 := fun e => h (UInt8.toNat_inj.mp e)
      rw [if_neg this, if_neg h]; show ce.toNat * 100 + yr.toNat = _; omega
  · simp only [hs]; omega

end Verif.MopId
