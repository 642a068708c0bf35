import Verif.Proofs.Bits
import Verif.Spec.Dates
/-!
# Effect of the date setters
-/

namespace AsyncZip
open Spec

/-- What a call does to each component, on any builder state. -/
theorem setCall_effect (b : Build) (d : ZipDateTime) (c : SetCall) (h : c.NoOverflow b) :
    ∃ d', c.apply b d = .ok d' ∧ ∀ k : Component,
      (k ≠ c.component → k.get d' = k.get d) ∧
      (k = c.component → k.get d = k.base → k.get d' = c.stored) := by
  cases c with
  | year y =>
    refine ⟨_, ZipDateTime.withYear_eq b d y h, ?_⟩
    have e : (UInt16.ofNat (((y.toInt - 1980) % 128).toNat * 2 ^ 9)).toNat = ((y.toInt - 1980) % 128).toNat * 2 ^ 9 := by
      rw [UInt16.toNat_ofNat']; omega
    have z1 : ((y.toInt - 1980) % 128).toNat * 2 ^ 9 / 2 ^ 9 % 2 ^ 7 = ((y.toInt - 1980) % 128).toNat := by omega
    have z2 : ((y.toInt - 1980) % 128).toNat * 2 ^ 9 / 2 ^ 5 % 2 ^ 4 = 0 := by omega
    have z3 : ((y.toInt - 1980) % 128).toNat * 2 ^ 9 / 2 ^ 0 % 2 ^ 5 = 0 := by omega
    intro k
    cases k <;> simp only [Component.get, Component.base, SetCall.component, SetCall.stored, ZipDateTime.year_eq,
      ZipDateTime.month_eq, ZipDateTime.day_eq, ZipDateTime.hour_eq, ZipDateTime.minute_eq, ZipDateTime.second_eq,
      UInt16.toNat_or, e, field_or, z1, z2, z3, Nat.or_zero] <;>
      refine ⟨fun hk => ?_, fun hk hz => ?_⟩ <;> first | trivial | rfl | (exfalso; exact hk rfl) | (cases hk; done) | skip
    have : d.date.toNat / 2 ^ 9 % 2 ^ 7 = 0 := by omega
    rw [this, Nat.zero_or]
    omega
  | month m =>
    refine ⟨_, ZipDateTime.withMonth_eq d m, ?_⟩
    have e : (UInt16.ofNat (m.toNat % 2 ^ 4 * 2 ^ 5)).toNat = m.toNat % 2 ^ 4 * 2 ^ 5 := by
      rw [UInt16.toNat_ofNat']; omega
    have z1 : m.toNat % 2 ^ 4 * 2 ^ 5 / 2 ^ 9 % 2 ^ 7 = 0 := by omega
    have z2 : m.toNat % 2 ^ 4 * 2 ^ 5 / 2 ^ 5 % 2 ^ 4 = m.toNat % 16 := by omega
    have z3 : m.toNat % 2 ^ 4 * 2 ^ 5 / 2 ^ 0 % 2 ^ 5 = 0 := by omega
    intro k
    cases k <;> simp only [Component.get, Component.base, SetCall.component, SetCall.stored, ZipDateTime.year_eq,
      ZipDateTime.month_eq, ZipDateTime.day_eq, ZipDateTime.hour_eq, ZipDateTime.minute_eq, ZipDateTime.second_eq,
      UInt16.toNat_or, e, field_or, z1, z2, z3, Nat.or_zero] <;>
      refine ⟨fun hk => ?_, fun hk hz => ?_⟩ <;> first | trivial | rfl | (exfalso; exact hk rfl) | (cases hk; done) | skip
    rw [hz, Nat.zero_or]
  | day m =>
    refine ⟨_, ZipDateTime.withDay_eq d m, ?_⟩
    have e : (UInt16.ofNat (m.toNat % 2 ^ 5 * 2 ^ 0)).toNat = m.toNat % 2 ^ 5 * 2 ^ 0 := by
      rw [UInt16.toNat_ofNat']; omega
    have z1 : m.toNat % 2 ^ 5 * 2 ^ 0 / 2 ^ 9 % 2 ^ 7 = 0 := by omega
    have z2 : m.toNat % 2 ^ 5 * 2 ^ 0 / 2 ^ 5 % 2 ^ 4 = 0 := by omega
    have z3 : m.toNat % 2 ^ 5 * 2 ^ 0 / 2 ^ 0 % 2 ^ 5 = m.toNat % 32 := by omega
    intro k
    cases k <;> simp only [Component.get, Component.base, SetCall.component, SetCall.stored, ZipDateTime.year_eq,
      ZipDateTime.month_eq, ZipDateTime.day_eq, ZipDateTime.hour_eq, ZipDateTime.minute_eq, ZipDateTime.second_eq,
      UInt16.toNat_or, e, field_or, z1, z2, z3, Nat.or_zero] <;>
      refine ⟨fun hk => ?_, fun hk hz => ?_⟩ <;> first | trivial | rfl | (exfalso; exact hk rfl) | (cases hk; done) | skip
    rw [hz, Nat.zero_or]
  | hour m =>
    refine ⟨_, ZipDateTime.withHour_eq d m, ?_⟩
    have e : (UInt16.ofNat (m.toNat % 2 ^ 5 * 2 ^ 11)).toNat = m.toNat % 2 ^ 5 * 2 ^ 11 := by
      rw [UInt16.toNat_ofNat']; omega
    have z1 : m.toNat % 2 ^ 5 * 2 ^ 11 / 2 ^ 11 % 2 ^ 5 = m.toNat % 32 := by omega
    have z2 : m.toNat % 2 ^ 5 * 2 ^ 11 / 2 ^ 5 % 2 ^ 6 = 0 := by omega
    have z3 : m.toNat % 2 ^ 5 * 2 ^ 11 / 2 ^ 0 % 2 ^ 5 = 0 := by omega
    intro k
    cases k <;> simp only [Component.get, Component.base, SetCall.component, SetCall.stored, ZipDateTime.year_eq,
      ZipDateTime.month_eq, ZipDateTime.day_eq, ZipDateTime.hour_eq, ZipDateTime.minute_eq, ZipDateTime.second_eq,
      UInt16.toNat_or, e, field_or, z1, z2, z3, Nat.or_zero] <;>
      refine ⟨fun hk => ?_, fun hk hz => ?_⟩ <;> first | trivial | rfl | (exfalso; exact hk rfl) | (cases hk; done) | skip
    rw [hz, Nat.zero_or]
  | minute m =>
    refine ⟨_, ZipDateTime.withMinute_eq d m, ?_⟩
    have e : (UInt16.ofNat (m.toNat % 2 ^ 6 * 2 ^ 5)).toNat = m.toNat % 2 ^ 6 * 2 ^ 5 := by
      rw [UInt16.toNat_ofNat']; omega
    have z1 : m.toNat % 2 ^ 6 * 2 ^ 5 / 2 ^ 11 % 2 ^ 5 = 0 := by omega
    have z2 : m.toNat % 2 ^ 6 * 2 ^ 5 / 2 ^ 5 % 2 ^ 6 = m.toNat % 64 := by omega
    have z3 : m.toNat % 2 ^ 6 * 2 ^ 5 / 2 ^ 0 % 2 ^ 5 = 0 := by omega
    intro k
    cases k <;> simp only [Component.get, Component.base, SetCall.component, SetCall.stored, ZipDateTime.year_eq,
      ZipDateTime.month_eq, ZipDateTime.day_eq, ZipDateTime.hour_eq, ZipDateTime.minute_eq, ZipDateTime.second_eq,
      UInt16.toNat_or, e, field_or, z1, z2, z3, Nat.or_zero] <;>
      refine ⟨fun hk => ?_, fun hk hz => ?_⟩ <;> first | trivial | rfl | (exfalso; exact hk rfl) | (cases hk; done) | skip
    rw [hz, Nat.zero_or]
  | second m =>
    refine ⟨_, ZipDateTime.withSecond_eq d m, ?_⟩
    have e : (UInt16.ofNat (m.toNat / 2 % 2 ^ 5 * 2 ^ 0)).toNat = m.toNat / 2 % 2 ^ 5 * 2 ^ 0 := by
      rw [UInt16.toNat_ofNat']; omega
    have z1 : m.toNat / 2 % 2 ^ 5 * 2 ^ 0 / 2 ^ 11 % 2 ^ 5 = 0 := by omega
    have z2 : m.toNat / 2 % 2 ^ 5 * 2 ^ 0 / 2 ^ 5 % 2 ^ 6 = 0 := by omega
    have z3 : m.toNat / 2 % 2 ^ 5 * 2 ^ 0 / 2 ^ 0 % 2 ^ 5 = m.toNat / 2 % 32 := by omega
    intro k
    cases k <;> simp only [Component.get, Component.base, SetCall.component, SetCall.stored, ZipDateTime.year_eq,
      ZipDateTime.month_eq, ZipDateTime.day_eq, ZipDateTime.hour_eq, ZipDateTime.minute_eq, ZipDateTime.second_eq,
      UInt16.toNat_or, e, field_or, z1, z2, z3, Nat.or_zero] <;>
      refine ⟨fun hk => ?_, fun hk hz => ?_⟩ <;> first | trivial | rfl | (exfalso; exact hk rfl) | (cases hk; done) | skip
    have : d.time.toNat / 2 ^ 0 % 2 ^ 5 = 0 := by omega
    rw [this, Nat.zero_or, Nat.mul_comm]

/-- Two dates with the same components are equal. -/
theorem components_ext (d d' : ZipDateTime) (h : ∀ k : Component, k.get d = k.get d') : d = d' := by
  have h1 := h .year
  have h2 := h .month
  have h3 := h .day
  have h4 := h .hour
  have h5 := h .minute
  have h6 := h .second
  simp only [Component.get, ZipDateTime.year_eq, ZipDateTime.month_eq, ZipDateTime.day_eq, ZipDateTime.hour_eq,
    ZipDateTime.minute_eq, ZipDateTime.second_eq] at h1 h2 h3 h4 h5 h6
  have l1 := d.date.toNat_lt
  have l2 := d'.date.toNat_lt
  have l3 := d.time.toNat_lt
  have l4 := d'.time.toNat_lt
  obtain ⟨a, t⟩ := d
  obtain ⟨a', t'⟩ := d'
  simp only at *
  have ha : a = a' := UInt16.toNat_inj.1 (by omega)
  have ht : t = t' := UInt16.toNat_inj.1 (by omega)
  rw [ha, ht]

/-- Calls on pairwise different components: every component set holds its stored value, the others are unchanged. -/
theorem applyCalls_effect (b : Build) (cs : List SetCall) :
    ∀ d : ZipDateTime, (∀ c ∈ cs, c.NoOverflow b) → (cs.map SetCall.component).Nodup →
      (∀ c ∈ cs, c.component.get d = c.component.base) →
      ∃ d', applyCalls b d cs = .ok d' ∧ (∀ c ∈ cs, c.component.get d' = c.stored) ∧
        ∀ k : Component, k ∉ cs.map SetCall.component → k.get d' = k.get d := by
  induction cs with
  | nil => intro d _ _ _; exact ⟨d, rfl, by simp, fun _ _ => rfl⟩
  | cons c cs ih =>
    intro d ho hn hb
    obtain ⟨d1, h1, e1⟩ := setCall_effect b d c (ho c (by simp))
    rw [List.map_cons, List.nodup_cons] at hn
    have hne : ∀ c' ∈ cs, c'.component ≠ c.component := fun c' hc' heq =>
      hn.1 (heq ▸ List.mem_map_of_mem hc')
    obtain ⟨d2, h2, s2, o2⟩ := ih d1 (fun c' hc' => ho c' (by simp [hc'])) hn.2
      (fun c' hc' => by rw [(e1 _).1 (hne c' hc'), hb c' (by simp [hc'])])
    refine ⟨d2, ?_, ?_, ?_⟩
    · simp only [applyCalls, h1]
      exact h2
    · intro c' hc'
      rcases List.mem_cons.1 hc' with rfl | hc'
      · rw [o2 _ hn.1, (e1 _).2 rfl (hb _ (by simp))]
      · exact s2 c' hc'
    · intro k hk
      rw [List.map_cons, List.mem_cons, not_or] at hk
      rw [o2 k hk.2, (e1 k).1 hk.1]

end AsyncZip
