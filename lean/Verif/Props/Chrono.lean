import Verif.Props.Dates
import Verif.Spec.Chrono
/-!
# C49: conversions from and to calendar dates
-/

namespace AsyncZip
open Spec

theorem daysInMonth_iff (y : Int) (m d : Nat) : (1 ≤ d ∧ d ≤ daysInMonth y m) ↔ IsDate y m d := by
  have hl : isLeapYear y = true ↔ 4 ∣ y ∧ (100 ∣ y → 400 ∣ y) := by
    simp only [isLeapYear, Bool.and_eq_true, beq_iff_eq, Bool.or_eq_true, bne_iff_ne]
    omega
  have hl' : (if isLeapYear y = true then 29 else 28) = (if 4 ∣ y ∧ (100 ∣ y → 400 ∣ y) then 29 else 28) := by
    simp only [hl]
  unfold IsDate daysInMonth monthLengths
  rw [hl']
  generalize (if 4 ∣ y ∧ (100 ∣ y → 400 ∣ y) then 29 else 28) = f
  rcases m with _ | _ | _ | _ | _ | _ | _ | _ | _ | _ | _ | _ | _ | m
  all_goals first | simp; done | (simp; omega) | skip

theorem fromChrono_eq (b : Build) (t : UtcDateTime) :
    ZipDateTime.fromChrono b t = applyCalls b ZipDateTime.default (allCalls t.year t.month t.day t.hour t.minute t.second) := by
  have h : ∀ x : Res ZipDateTime, (x >>= fun d => Except.ok d) = x := fun x => by cases x <;> rfl
  simp only [ZipDateTime.fromChrono, applyCalls, allCalls, SetCall.apply, h]

/-- The date of a moment the format can hold. -/
theorem fromChrono_reads (b : Build) (t : UtcDateTime) (ht : IsMoment t) (hy : 1980 ≤ t.year.toInt ∧ t.year.toInt ≤ 2107) :
    ∃ d, ZipDateTime.fromChrono b t = .ok d ∧ (d.year : Int) = t.year.toInt ∧ d.month = t.month.toNat ∧ d.day = t.day.toNat ∧
      d.hour = t.hour.toNat ∧ d.minute = t.minute.toNat ∧ d.second = t.second.toNat / 2 * 2 ∧
      dosNumber d = dosDate t.year.toInt.toNat t.month.toNat t.day.toNat * 65536 +
        dosTime t.hour.toNat t.minute.toNat t.second.toNat ∧ t.month.toNat ≤ 12 ∧ t.day.toNat ≤ 31 := by
  have hd := (daysInMonth_iff _ _ _).2 ht.date
  have hm : t.month.toNat ≤ 12 ∧ t.day.toNat ≤ 31 := by
    unfold daysInMonth at hd
    split at hd
    · split at hd <;> omega
    · split at hd
      · omega
      · split at hd <;> omega
  have := ht.hour
  have := ht.minute
  have := ht.second
  rw [fromChrono_eq]
  obtain ⟨d, h0, h1, h2, h3, h4, h5, h6, h7, h8⟩ := C09_build_then_read b t.year t.month t.day t.hour t.minute t.second hy
    (by omega) (by omega) (by omega) (by omega) (by omega)
  exact ⟨d, h0, h1, h2, h3, h4, h5, h6, by rw [dosNumber, h7, h8], hm⟩

/-- C49. Every moment converts without a panic, also those of years the format cannot hold. -/
theorem C49_no_panic (b : Build) (t : UtcDateTime) (ht : IsMoment t) : ∃ d, ZipDateTime.fromChrono b t = .ok d := by
  rw [fromChrono_eq]
  obtain ⟨d, h, -⟩ := applyCalls_effect b (allCalls t.year t.month t.day t.hour t.minute t.second) ZipDateTime.default
    (by intro c hc
        have := ht.years
        simp only [allCalls, List.mem_cons, List.not_mem_nil, or_false] at hc
        rcases hc with rfl | rfl | rfl | rfl | rfl | rfl
        · right; omega
        all_goals trivial)
    (by show List.Nodup [Component.year, .month, .day, .hour, .minute, .second]
        decide)
    (by intro c hc
        simp only [allCalls, List.mem_cons, List.not_mem_nil, or_false] at hc
        rcases hc with rfl | rfl | rfl | rfl | rfl | rfl <;> rfl)
  exact ⟨d, h⟩

/-- C49. A moment of the years 1980 to 2107 comes back with its seconds rounded down to even. -/
theorem C49_round_trip_partial (b : Build) (t : UtcDateTime) (ht : IsMoment t)
    (hy : 1980 ≤ t.year.toInt ∧ t.year.toInt ≤ 2107) :
    ∃ d t', ZipDateTime.fromChrono b t = .ok d ∧ d.asChrono = some t' ∧ t'.year = t.year ∧ t'.month = t.month ∧
      t'.day = t.day ∧ t'.hour = t.hour ∧ t'.minute = t.minute ∧ t'.second.toNat = t.second.toNat / 2 * 2 ∧
      t'.nanosecond = 0 := by
  obtain ⟨d, h0, h1, h2, h3, h4, h5, h6, -, -, -⟩ := fromChrono_reads b t ht hy
  have hu : ∀ v : UInt32, UInt32.ofNat v.toNat = v := fun v => UInt32.ofNat_toNat
  have e1 : Int32.ofNat d.year = t.year := by
    apply Int32.toInt_inj.1
    rw [Int32.toInt_ofNat_of_lt (by omega), h1]
  have e6 : (UInt32.ofNat (t.second.toNat / 2 * 2)).toNat = t.second.toNat / 2 * 2 := by
    have := t.second.toNat_lt
    rw [UInt32.toNat_ofNat']; omega
  have hs := ht.second
  have hc : d.asChrono = some { t with second := UInt32.ofNat (t.second.toNat / 2 * 2), nanosecond := 0 } := by
    unfold ZipDateTime.asChrono
    rw [e1, h2, h3, h4, h5, h6, hu, hu, hu, hu, withYmdAndHms, if_pos]
    refine ⟨ht.years.1, ht.years.2, ?_⟩
    have := (daysInMonth_iff _ _ _).2 ht.date
    exact ⟨this.1, this.2, ht.hour, ht.minute, by omega⟩
  exact ⟨d, _, h0, hc, rfl, rfl, rfl, rfl, rfl, e6, rfl⟩

/-- C49. What a stored date converts to: the moment with its components, if there is one, which converts back to that very
date; nothing if the calendar has no such moment (month 13, 30 February, hour 25, second 60). -/
theorem C49_stored_dates (b : Build) (d : ZipDateTime) :
    (∀ t, d.asChrono = some t → IsMoment t ∧ t.year.toInt = d.year ∧ t.month.toNat = d.month ∧ t.day.toNat = d.day ∧
      t.hour.toNat = d.hour ∧ t.minute.toNat = d.minute ∧ t.second.toNat = d.second ∧ ZipDateTime.fromChrono b t = .ok d) ∧
    (d.asChrono = none ↔ ¬ (IsDate d.year d.month d.day ∧ d.hour < 24 ∧ d.minute < 60 ∧ d.second < 60)) := by
  obtain ⟨r1, r2, r3, r4, r5, r6, r7, -⟩ := C09_component_ranges d
  have n : ∀ v, v ≤ 100 → (UInt32.ofNat v).toNat = v := fun v hv => by rw [UInt32.toNat_ofNat']; omega
  have y : (Int32.ofNat d.year).toInt = d.year := Int32.toInt_ofNat_of_lt (by omega)
  unfold ZipDateTime.asChrono withYmdAndHms
  rw [y, n _ (by omega), n _ (by omega), n _ (by omega), n _ (by omega), n _ (by omega)]
  constructor
  · intro t h
    split at h
    · rename_i hc
      obtain rfl := Option.some.inj h
      refine ⟨⟨?_, ?_, ?_, ?_, ?_⟩, y, n _ (by omega), n _ (by omega), n _ (by omega), n _ (by omega), n _ (by omega), ?_⟩
      · rw [y]; omega
      · rw [y, n _ (by omega), n _ (by omega)]
        exact (daysInMonth_iff _ _ _).1 ⟨hc.2.2.1, hc.2.2.2.1⟩
      · rw [n _ (by omega)]; omega
      · rw [n _ (by omega)]; omega
      · rw [n _ (by omega)]; omega
      · rw [fromChrono_eq]
        exact C09_read_then_build b d
    · cases h
  · rw [← daysInMonth_iff]
    split
    · rename_i hc
      exact ⟨fun h => (by cases h), fun h => absurd ⟨⟨hc.2.2.1, hc.2.2.2.1⟩, hc.2.2.2.2⟩ h⟩
    · rename_i hc
      exact ⟨fun _ h => hc ⟨by omega, by omega, h.1.1, h.1.2, h.2⟩, fun _ => rfl⟩

/-- A leap day, the same day of another year, and a date with month 15. -/
example : (ZipDateTime.asChrono ⟨22621, 0⟩) = some ⟨2024, 2, 29, 0, 0, 0, 0⟩ ∧ ZipDateTime.asChrono ⟨22109, 0⟩ = none ∧
    ZipDateTime.asChrono ⟨495, 0⟩ = none := by decide +kernel

/-- 29 February 2096, a leap second. -/
example : ∃ d t', ZipDateTime.fromChrono ⟨true, 0⟩ ⟨2096, 2, 29, 23, 59, 59, 1500000000⟩ = .ok d ∧ d.asChrono = some t' ∧
    t'.second.toNat = 58 := by
  obtain ⟨d, t', h1, h2, -, -, -, -, -, h3, -⟩ := C49_round_trip_partial ⟨true, 0⟩ ⟨2096, 2, 29, 23, 59, 59, 1500000000⟩
    ⟨by decide, (daysInMonth_iff _ _ _).1 (by decide), by decide, by decide, by decide⟩ (by decide)
  exact ⟨d, t', h1, h2, h3⟩

/-- C49. The DOS numbers of moments are ordered as the moments are. -/
theorem C49_order (b : Build) (t u : UtcDateTime) (ht : IsMoment t) (hu : IsMoment u)
    (hty : 1980 ≤ t.year.toInt ∧ t.year.toInt ≤ 2107) (huy : 1980 ≤ u.year.toInt ∧ u.year.toInt ≤ 2107) :
    ∃ d e, ZipDateTime.fromChrono b t = .ok d ∧ ZipDateTime.fromChrono b u = .ok e ∧ (dosNumber d < dosNumber e ↔ Earlier t u) := by
  obtain ⟨d, h0, -, -, -, -, -, -, h1, h2, h3⟩ := fromChrono_reads b t ht hty
  obtain ⟨e, k0, -, -, -, -, -, -, k1, k2, k3⟩ := fromChrono_reads b u hu huy
  refine ⟨d, e, h0, k0, ?_⟩
  rw [h1, k1]
  unfold Earlier dosDate dosTime
  simp only [UInt32.lt_iff_toNat_lt, ← UInt32.toNat_inj, ← Int32.toInt_inj]
  have := ht.hour
  have := ht.minute
  have := ht.second
  have := hu.hour
  have := hu.minute
  have := hu.second
  omega

/-- C49 as written does not hold: years the format cannot hold are silently wrapped. -/
theorem C49_years_fails :
    ∃ t u : UtcDateTime, IsMoment t ∧ IsMoment u ∧ Earlier t u ∧
      ∃ d e, ZipDateTime.fromChrono ⟨true, 0⟩ t = .ok d ∧ ZipDateTime.fromChrono ⟨true, 0⟩ u = .ok e ∧
        d.year = 2107 ∧ e.year = 1980 := by
  refine ⟨⟨1979, 12, 31, 23, 59, 59, 0⟩, ⟨2108, 1, 1, 0, 0, 0, 0⟩, ?_, ?_, ?_, ⟨0xFF9F, 0xBF7D⟩, ⟨33, 0⟩, by rfl, by rfl, by rfl, by rfl⟩
  · exact ⟨by decide, (daysInMonth_iff _ _ _).1 (by decide), by decide, by decide, by decide⟩
  · exact ⟨by decide, (daysInMonth_iff _ _ _).1 (by decide), by decide, by decide, by decide⟩
  · exact Or.inl (by decide)

end AsyncZip
