import Verif.Proofs.Ahead
/-!
# Streaming over a file with changes in one stored entry
-/

namespace AsyncZip
open Spec Rd

theorem visits_append (C : Codec) (b : Build) : ∀ vs ws : List Visit, visits C b (vs ++ ws) = visits C b vs >>= fun x =>
    if x.2 then pure x else visits C b ws >>= fun y => pure (x.1 ++ y.1, y.2)
  | [], ws => by
    funext s
    rw [List.nil_append]
    show _ = (visits C b ws >>= fun y => pure ([] ++ y.1, y.2)) s
    cases h : visits C b ws s with
    | mk r s1 =>
      cases r with
      | error e => exact (bind_of_error h).symm
      | ok y => rw [bind_of_ok h]; rfl
  | v :: vs, ws => by
    rw [List.cons_append]
    show (visit C b v >>= fun x => _) = (visit C b v >>= fun x => _) >>= _
    rw [bind_assoc']
    congr 1
    funext x
    cases x with
    | none => rfl
    | some x =>
      simp only [visits_append C b vs ws, bind_assoc', pure_bind']
      congr 1
      funext y
      obtain ⟨ys, en⟩ := y
      cases en with
      | true => rfl
      | false =>
        simp only [Bool.false_eq_true, if_false, bind_assoc', pure_bind']
        rfl

/-- The streaming reader does not take on a stored entry with a data descriptor. -/
theorem lfh_stored {b : Build} {s s' : RState} {e : ZipEntry} (h : lfh b s = (.ok (some e), s')) (hm : e.compression = .stored) :
    e.dataDescriptor = false := by
  unfold lfh at h
  obtain ⟨sig, s2, _, h3⟩ := bind_ok_iff.1 h
  by_cases c1 : fromLe32 sig = LFH_SIGNATURE
  · rw [if_pos c1] at h3
    obtain ⟨hd, s3, _, h3⟩ := bind_ok_iff.1 h3
    obtain ⟨_, s4, _, h3⟩ := bind_ok_iff.1 h3
    obtain ⟨m, s5, _, h3⟩ := bind_ok_iff.1 h3
    obtain ⟨_, s6, _, h3⟩ := bind_ok_iff.1 h3
    obtain ⟨_, s7, _, h3⟩ := bind_ok_iff.1 h3
    split at h3
    · cases h3
    · rename_i hn
      split at h3
      · cases h3
      · cases h3
        simp only at hm ⊢
        subst hm
        cases hf : hd.flags.dataDescriptor with
        | false => rfl
        | true => rw [hf] at hn; exact absurd rfl hn
  · rw [if_neg c1] at h3
    split at h3 <;> cases h3

theorem visit_unfold {C : Codec} (hC : FrontToBack C) {b : Build} {v : Visit} (hv : v.Buffered) {data : Bytes} {pos p : Nat}
    {e : ZipEntry} {o : Option Bytes} (h : Runs (visit C b v) data pos (.ok (some (e, o))) p) (hm : e.compression = .stored)
    (hp : p < data.length) : ∃ q, Runs (lfh b) data pos (.ok (some e)) q ∧ pos ≤ q ∧ e.dataDescriptor = false ∧
      p = q + e.compressedSize.toNat := by
  rw [visit_eq] at h
  obtain ⟨a, q, h1, h2, h3, h4⟩ := Runs.of_bind (lfh_cuts b) (fun a => by
    cases a with
    | none => exact Cuts.pure
    | some a => exact visitOf_cuts hC hv a) h
  cases a with
  | none =>
    have := (Runs.inj h3 Runs.pure).1
    cases this
  | some a =>
    obtain ⟨o', p1, g1, _, g2, _⟩ := Runs.of_bind (consume_cuts hC hv) (fun _ => Cuts.bind (descriptor_cuts _) fun _ _ =>
      Cuts.pure) h3
    obtain ⟨u, p2, g3, _, g4, _⟩ := Runs.of_bind (descriptor_cuts _) (fun _ => Cuts.pure) g2
    have g5 := (Runs.inj g4 Runs.pure)
    obtain ⟨g5, rfl⟩ := g5
    simp only [Option.some.injEq, Prod.mk.injEq] at g5
    obtain ⟨rfl, rfl⟩ := g5
    have hdd : e.dataDescriptor = false := by
      obtain ⟨l, h1⟩ := h1 []
      exact lfh_stored h1 hm
    rw [hdd] at g1 g3
    obtain ⟨_, rfl⟩ := Runs.inj g3 Runs.pure
    refine ⟨q, h1, h2, hdd, ?_⟩
    simp only [Bool.false_eq_true, if_false] at g1
    rw [hm] at g1
    have hok : (entryData C .stored data q e.compressedSize.toNat).ok = true := by unfold entryData; rw [if_pos rfl]
    by_cases hr : Refuses v e.crc32 (entryData C .stored data q e.compressedSize.toNat).out
    · exact absurd (fun log => consume_fails (s := ⟨data, q, none, log⟩) hv (Or.inr hr)) fun h' => g1.ok_fails h'
    obtain ⟨_, rfl⟩ := Runs.inj g1 (consume_runs hv hok hr)
    rw [entryData, if_pos rfl] at hp ⊢
    simp only [window, List.length_take, List.length_drop] at hp ⊢
    omega

/-- The two files, as far as the entry whose data differs. -/
theorem damage_start {C : Codec} (hC : FrontToBack C) {b : Build} {vs : List Visit} {v : Visit} (hv : ∀ u ∈ vs, u.Buffered)
    (hv' : v.Buffered) {data data' : Bytes} {pos p : Nat} {xs : List (ZipEntry × Option Bytes)} {e : ZipEntry} {o : Option Bytes}
    (h : Runs (visits C b (vs ++ [v])) data pos (.ok (xs ++ [(e, o)], false)) p) (hm : e.compression = .stored)
    (hp : p < data.length) (hs : SameOutside data' data (p - e.compressedSize.toNat) p) :
    e.dataDescriptor = false ∧ e.compressedSize.toNat ≤ p ∧ ∃ p1, Runs (visits C b vs) data pos (.ok (xs, false)) p1 ∧
      Runs (visits C b vs) data' pos (.ok (xs, false)) p1 ∧
      Runs (lfh b) data p1 (.ok (some e)) (p - e.compressedSize.toNat) ∧
      Runs (lfh b) data' p1 (.ok (some e)) (p - e.compressedSize.toNat) := by
  rw [visits_append] at h
  have ct : ∀ w : Visit, w.Buffered → Cuts (visits C b [w]) := fun w hw => visits_total hC b [w] fun u hu => by
    rw [List.mem_singleton] at hu; exact hu ▸ hw
  obtain ⟨⟨ys, en⟩, p1, h1, h2, h3, h4⟩ := Runs.of_bind (visits_total hC b vs hv) (fun x => Cuts.ite Cuts.pure
    (Cuts.bind (ct v hv') fun _ _ => Cuts.pure)) h
  cases en with
  | true =>
    have := (Runs.inj h3 Runs.pure).1
    cases this
  | false =>
    simp only [Bool.false_eq_true, if_false] at h3
    obtain ⟨⟨zs, en⟩, p2, g1, g2, g3, _⟩ := Runs.of_bind (ct v hv') (fun _ => Cuts.pure) h3
    obtain ⟨e1, rfl⟩ := Runs.inj g3 Runs.pure
    simp only [Prod.mk.injEq] at e1
    obtain ⟨e1, rfl⟩ := e1
    obtain ⟨x, p3, k1, k2, k3, _⟩ := Runs.of_bind (m := visit C b v) (visit_cuts hC b hv') (fun x => by
      cases x with
      | none => exact Cuts.pure
      | some x => exact Cuts.pure) g1
    cases x with
    | none =>
      have := (Runs.inj k3 Runs.pure).1
      cases this
    | some x =>
      obtain ⟨e2, rfl⟩ := Runs.inj k3 (Runs.pure (a := ([x], false)))
      simp only [Prod.mk.injEq, and_true] at e2
      subst e2
      obtain ⟨e3, e4⟩ := List.append_inj' e1 rfl
      subst e3
      simp only [List.cons.injEq, and_true] at e4
      subst e4
      obtain ⟨q, m1, m2, m3, m4⟩ := visit_unfold hC hv' k1 hm hp
      have hq : p - e.compressedSize.toNat = q := by omega
      rw [hq] at hs ⊢
      have same : ∀ r, r < q → data'[r]? = data[r]? := fun r hr => by
        have := congrArg (fun w : List UInt8 => w[r]?) hs.before
        simpa [List.getElem?_take, hr] using this
      refine ⟨m3, by omega, p1, h1, ?_, m1, ?_⟩
      · exact visits_local hC b vs hv data data' pos _ p1 h1 (Or.inr hs.length) fun r _ hr => same r (by omega)
      · exact lfh_local b data data' p1 _ q m1 (Or.inr hs.length) fun r _ hr => same r hr

/-- From a stored entry on: what the client does with it, and with those that follow. -/
theorem damage_rest {C : Codec} {b : Build} {vs ws : List Visit} {w : Visit} {data : Bytes} {pos p1 q : Nat}
    {xs : List (ZipEntry × Option Bytes)} {e : ZipEntry} (h1 : Runs (visits C b vs) data pos (.ok (xs, false)) p1)
    (h2 : Runs (lfh b) data p1 (.ok (some e)) q) (hdd : e.dataDescriptor = false) {r : Res (Option Bytes)} {q' : Nat}
    (h3 : Runs (consume C (EntryReader.new e.compression e.compressedSize.toNat) e.crc32 w) data q r q') (log : List RdEvent) :
    match r with
    | .error y => (visits C b (vs ++ w :: ws) ⟨data, pos, none, log⟩).1 = .error y
    | .ok o => ∃ log', (visits C b (vs ++ w :: ws) ⟨data, pos, none, log⟩).1 =
        (visits C b ws ⟨data, q', none, log'⟩).1.map fun y => (xs ++ (e, o) :: y.1, y.2) := by
  obtain ⟨l1, e1⟩ := h1 log
  obtain ⟨l2, e2⟩ := h2 l1
  obtain ⟨l3, e3⟩ := h3 l2
  have hvis : visit C b w ⟨data, p1, none, l1⟩ = (r.map fun o => some (e, o), ⟨data, q', none, l3⟩) := by
    rw [visit_eq, bind_of_ok e2]
    simp only
    unfold visitOf
    rw [hdd]
    simp only [Bool.false_eq_true, if_false]
    cases r with
    | error y => rw [bind_of_error e3]; rfl
    | ok o => rw [bind_of_ok e3]; rfl
  rw [visits_append, bind_of_ok e1]
  simp only [Bool.false_eq_true, if_false]
  cases r with
  | error y =>
    simp only
    have hws : visits C b (w :: ws) ⟨data, p1, none, l1⟩ = (.error y, ⟨data, q', none, l3⟩) := bind_of_error hvis
    rw [bind_of_error hws]
  | ok o =>
    refine ⟨l3, ?_⟩
    cases hr : visits C b ws ⟨data, q', none, l3⟩ with
    | mk r s1 =>
      cases r with
      | error y =>
        have hws : visits C b (w :: ws) ⟨data, p1, none, l1⟩ = (.error y, s1) := by
          refine (bind_of_ok hvis).trans ?_
          exact bind_of_error hr
        rw [bind_of_error hws]
        rfl
      | ok y =>
        have hws : visits C b (w :: ws) ⟨data, p1, none, l1⟩ = (.ok ((e, o) :: y.1, y.2), s1) := by
          refine (bind_of_ok hvis).trans ?_
          exact bind_of_ok hr
        rw [bind_of_ok hws]
        rfl

/-- A checked read of data with another checksum. -/
theorem consume_refused {C : Codec} {m : Compression} {len chunk : Nat} {crc : UInt32} (hc : 0 < chunk) {data : Bytes} {pos : Nat}
    (hok : (entryData C m data pos len).ok = true) (hne : crc32 (entryData C m data pos len).out ≠ crc) :
    Runs (consume C (EntryReader.new m len) crc (.check chunk)) data pos (.error (.err .crc32CheckError))
      (pos + (entryData C m data pos len).used) := by
  intro log
  have hrest : (EntryReader.new m len).rest C ⟨data, pos, none, log⟩ =
      ⟨(entryData C m data pos len).out, (entryData C m data pos len).used, true⟩ := by
    rw [rest_new, ← hok]
  obtain ⟨⟨d, er⟩, ⟨d', p, c, l⟩, h1, ⟨h5, h2, h3, _⟩, h4⟩ := does_ideal (readToEnd_calm C chunk _) (by rfl)
    (Does.readToEnd hc hrest)
  simp only at h2 h3 h4 h5
  subst h2 h3 h4 h5
  refine ⟨l, ?_⟩
  obtain ⟨_, _, _, _, g3⟩ := readToEnd_ok hc h1
  have hh : er.computeHash.1 ≠ crc := by
    rw [show er.computeHash.1 = er.hasher.finalize from rfl, g3]
    exact hne
  have hx : (EntryReader.new m len).readToEndChecked C chunk crc ⟨d', pos, none, log⟩ =
      (.error (.err .crc32CheckError), ⟨d', pos + (entryData C m d' pos len).used, none, l⟩) := by
    unfold EntryReader.readToEndChecked
    rw [bind_of_ok h1]
    simp only
    rw [if_neg hh]
    rfl
  exact bind_of_error hx

end AsyncZip
