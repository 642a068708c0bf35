import Verif.Proofs.Dates
/-!
# C09, C10: MS-DOS dates
-/

namespace AsyncZip
open Spec

/-! ## C09 -/

/-- C09. Components in range are read back (seconds rounded down to even), and the words have the MS-DOS layout. -/
theorem C09_build_then_read (b : Build) (y : Int32) (mo d h mi s : UInt32)
    (hy : 1980 ≤ y.toInt ∧ y.toInt ≤ 2107) (hmo : mo.toNat ≤ 15) (hd : d.toNat ≤ 31) (hh : h.toNat ≤ 31)
    (hmi : mi.toNat ≤ 63) (hs : s.toNat ≤ 63) :
    ∃ dt, applyCalls b ZipDateTime.default (allCalls y mo d h mi s) = .ok dt ∧
      (dt.year : Int) = y.toInt ∧ dt.month = mo.toNat ∧ dt.day = d.toNat ∧ dt.hour = h.toNat ∧ dt.minute = mi.toNat ∧
      dt.second = s.toNat / 2 * 2 ∧
      dt.date.toNat = dosDate y.toInt.toNat mo.toNat d.toNat ∧ dt.time.toNat = dosTime h.toNat mi.toNat s.toNat := by
  obtain ⟨dt, h1, h2, -⟩ := applyCalls_effect b (allCalls y mo d h mi s) ZipDateTime.default
    (by intro c hc
        simp only [allCalls, List.mem_cons, List.not_mem_nil, or_false] at hc
        rcases hc with rfl | rfl | rfl | rfl | rfl | rfl
        · right; omega
        all_goals trivial)
    (by show List.Nodup [Component.year, .month, .day, .hour, .minute, .second]
        decide)
    (by intro c hc
        simp only [allCalls, List.mem_cons, List.not_mem_nil, or_false] at hc
        rcases hc with rfl | rfl | rfl | rfl | rfl | rfl <;> rfl)
  have e1 := h2 (.year y) (by simp [allCalls])
  have e2 := h2 (.month mo) (by simp [allCalls])
  have e3 := h2 (.day d) (by simp [allCalls])
  have e4 := h2 (.hour h) (by simp [allCalls])
  have e5 := h2 (.minute mi) (by simp [allCalls])
  have e6 := h2 (.second s) (by simp [allCalls])
  simp only [SetCall.component, Component.get, SetCall.stored] at e1 e2 e3 e4 e5 e6
  have l1 := dt.date.toNat_lt
  have l2 := dt.time.toNat_lt
  have f1 := dt.year_eq
  have f2 := dt.month_eq
  have f3 := dt.day_eq
  have f4 := dt.hour_eq
  have f5 := dt.minute_eq
  have f6 := dt.second_eq
  refine ⟨dt, h1, ?_, ?_, ?_, ?_, ?_, ?_, ?_, ?_⟩
  · omega
  · omega
  · omega
  · omega
  · omega
  · omega
  · unfold dosDate; omega
  · unfold dosTime; omega

/-- C09. Components are always in range, whatever the words. -/
theorem C09_component_ranges (dt : ZipDateTime) :
    1980 ≤ dt.year ∧ dt.year ≤ 2107 ∧ dt.month ≤ 15 ∧ dt.day ≤ 31 ∧ dt.hour ≤ 31 ∧ dt.minute ≤ 63 ∧ dt.second ≤ 62 ∧
      dt.second % 2 = 0 := by
  rw [ZipDateTime.year_eq, ZipDateTime.month_eq, ZipDateTime.day_eq, ZipDateTime.hour_eq, ZipDateTime.minute_eq,
    ZipDateTime.second_eq]
  omega

/-- C09. Every stored date is rebuilt from its own components. -/
theorem C09_read_then_build (b : Build) (dt : ZipDateTime) :
    applyCalls b ZipDateTime.default (allCalls (Int32.ofNat dt.year) (UInt32.ofNat dt.month) (UInt32.ofNat dt.day)
      (UInt32.ofNat dt.hour) (UInt32.ofNat dt.minute) (UInt32.ofNat dt.second)) = .ok dt := by
  obtain ⟨r1, r2, r3, r4, r5, r6, r7, r8⟩ := C09_component_ranges dt
  have hy : (Int32.ofNat dt.year).toInt = dt.year := Int32.toInt_ofNat_of_lt (by omega)
  have hu : ∀ n, n < 64 → (UInt32.ofNat n).toNat = n := by
    intro n hn
    rw [UInt32.toNat_ofNat']; omega
  obtain ⟨dt', h, e1, e2, e3, e4, e5, e6, -, -⟩ := C09_build_then_read b (Int32.ofNat dt.year) (UInt32.ofNat dt.month)
    (UInt32.ofNat dt.day) (UInt32.ofNat dt.hour) (UInt32.ofNat dt.minute) (UInt32.ofNat dt.second) (by omega)
    (by rw [hu _ (by omega)]; omega) (by rw [hu _ (by omega)]; omega) (by rw [hu _ (by omega)]; omega)
    (by rw [hu _ (by omega)]; omega) (by rw [hu _ (by omega)]; omega)
  rw [hu _ (by omega)] at e2 e3 e4 e5 e6
  rw [h, components_ext dt' dt]
  intro k
  cases k <;> simp only [Component.get] <;> omega

example : applyCalls ⟨true, 0⟩ ZipDateTime.default (allCalls 2107 12 31 23 59 59) = .ok ⟨0xFF9F, 0xBF7D⟩ := rfl

/-! ## C10 -/

/-- C10. On any builder state and for any argument, a setter succeeds (unless the year subtraction overflows in a checked
build), changes only its own component and, if that component was untouched, stores the argument reduced to the
width of its field. -/
theorem C10_setter_independent (b : Build) (d : ZipDateTime) (c : SetCall) (h : c.NoOverflow b) :
    ∃ d', c.apply b d = .ok d' ∧ ∀ k : Component,
      (k ≠ c.component → k.get d' = k.get d) ∧
      (k = c.component → k.get d = k.base → k.get d' = c.stored) :=
  setCall_effect b d c h

/-- C10. The only panic of a setter is the overflow of `year - 1980`. -/
theorem C10_setter_panics_iff (b : Build) (d : ZipDateTime) (c : SetCall) :
    c.apply b d = .error .panic ↔ b.overflowChecks = true ∧ ∃ y, c = .year y ∧ y.toInt < -(2 ^ 31 : Int) + 1980 := by
  constructor
  · intro hp
    by_cases h : c.NoOverflow b
    · obtain ⟨d', h', -⟩ := setCall_effect b d c h
      rw [h'] at hp
      cases hp
    · cases c with
      | year y =>
        simp only [SetCall.NoOverflow, not_or, Bool.not_eq_false] at h
        exact ⟨h.1, y, rfl, by omega⟩
      | _ => exact absurd trivial h
  · rintro ⟨hb, y, rfl, hy⟩
    simp only [SetCall.apply, ZipDateTime.withYear]
    rw [if_pos]
    simp [hb]
    omega

/-- C10. Setters commute (those of different components in particular), from any builder state. -/
theorem C10_setters_commute (b : Build) (d : ZipDateTime) (c c' : SetCall) (h : c.NoOverflow b) (h' : c'.NoOverflow b) :
    applyCalls b d [c, c'] = applyCalls b d [c', c] := by
  have key : ∀ c : SetCall, c.NoOverflow b → ∃ x y : UInt16, ∀ d : ZipDateTime,
      c.apply b d = .ok { date := d.date ||| x, time := d.time ||| y } := by
    intro c h
    have z : ∀ v : UInt16, v ||| 0 = v := by intro v; simp
    cases c with
    | year y => exact ⟨UInt16.ofNat (((y.toInt - 1980) % 128).toNat * 2 ^ 9), 0, fun d => by rw [SetCall.apply, ZipDateTime.withYear_eq b d y h, z]⟩
    | month m => exact ⟨UInt16.ofNat (m.toNat % 2 ^ 4 * 2 ^ 5), 0, fun d => by rw [SetCall.apply, ZipDateTime.withMonth_eq, z]⟩
    | day m => exact ⟨UInt16.ofNat (m.toNat % 2 ^ 5 * 2 ^ 0), 0, fun d => by rw [SetCall.apply, ZipDateTime.withDay_eq, z]⟩
    | hour m => exact ⟨0, _, fun d => by rw [SetCall.apply, ZipDateTime.withHour_eq, z]⟩
    | minute m => exact ⟨0, _, fun d => by rw [SetCall.apply, ZipDateTime.withMinute_eq, z]⟩
    | second m => exact ⟨0, _, fun d => by rw [SetCall.apply, ZipDateTime.withSecond_eq, z]⟩
  obtain ⟨x, y, hc⟩ := key c h
  obtain ⟨x', y', hc'⟩ := key c' h'
  have l : applyCalls b d [c, c'] = .ok { date := d.date ||| x ||| x', time := d.time ||| y ||| y' } := by
    simp only [applyCalls, hc]
    show (c'.apply b _ >>= fun d' => .ok d') = _
    rw [hc']; rfl
  have r : applyCalls b d [c', c] = .ok { date := d.date ||| x' ||| x, time := d.time ||| y' ||| y } := by
    simp only [applyCalls, hc']
    show (c.apply b _ >>= fun d' => .ok d') = _
    rw [hc]; rfl
  rw [l, r, UInt16.or_assoc, UInt16.or_comm x, ← UInt16.or_assoc, UInt16.or_assoc d.time, UInt16.or_comm y,
    ← UInt16.or_assoc]

/-- C10 (partial). A fresh builder called in any order with calls for pairwise different components holds exactly the
arguments. Missing from the full claim: setting the same component twice, see `C10_last_setting_wins_fails`. -/
theorem C10_each_component_once_partial (b : Build) (cs : List SetCall) (ho : ∀ c ∈ cs, c.NoOverflow b)
    (hn : (cs.map SetCall.component).Nodup) :
    ∃ d', applyCalls b ZipDateTime.default cs = .ok d' ∧ (∀ c ∈ cs, c.component.get d' = c.stored) ∧
      ∀ k : Component, k ∉ cs.map SetCall.component → k.get d' = k.base := by
  have hbase : ∀ k : Component, k.get ZipDateTime.default = k.base := by intro k; cases k <;> rfl
  obtain ⟨d', h1, h2, h3⟩ := applyCalls_effect b cs ZipDateTime.default ho hn (fun c _ => hbase _)
  exact ⟨d', h1, h2, fun k hk => by rw [h3 k hk, hbase]⟩

/-- C10, negative. Setting the month to 1 and then to 2 gives month 3: setters OR bits into the word. -/
theorem C10_last_setting_wins_fails (b : Build) :
    ∃ d', applyCalls b ZipDateTime.default [.month 1, .month 2] = .ok d' ∧ d'.month = 3 :=
  ⟨⟨0x60, 0⟩, rfl, by decide⟩

example (b : Build) : (∀ c ∈ [SetCall.second 59, .year 2024, .day 31], c.NoOverflow b) ∧
    ([SetCall.second 59, .year 2024, .day 31].map SetCall.component).Nodup := by
  refine ⟨?_, by decide⟩
  intro c hc
  simp only [List.mem_cons, List.not_mem_nil, or_false] at hc
  rcases hc with rfl | rfl | rfl
  · trivial
  · exact Or.inr (by decide)
  · trivial

end AsyncZip
