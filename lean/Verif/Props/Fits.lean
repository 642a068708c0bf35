import Verif.Proofs.Fits
import Verif.Samples.Programs
/-!
# C52: calls within the limits succeed
-/

namespace AsyncZip
open Spec Wr Samples

/-- C52. A call whose entry is within the limits of the format succeeds, on any archive that may use ZIP64: it fails only if
the sink fails or its future is dropped. -/
theorem C52_call (C : Codec) (zw : ZipWriter) (hz : zw.forceNoZip64 = false) (op : Op) (h : Sound op) :
    Succeeded (runOp C zw op).1 := by
  have quits : ∀ {x : Fail} {α : Type}, Quit x → x ≠ .panic → x ≠ tooMany → Completed (.error x : Res α) → False := by
    intro x α hq hp ht hc
    rcases hq with hq | hq | hq
    · exact completed_not hc hq.cast
    · exact hp hq
    · exact ht hq
  have done : ∀ {r : Res Unit}, (∀ x, r = .error x → Quit x ∧ x ≠ .panic ∧ x ≠ tooMany) → Completed r → r = .ok () := by
    intro r hr hc
    cases r with
    | ok u => rfl
    | error x =>
      obtain ⟨h1, h2, h3⟩ := hr x rfl
      exact (quits h1 h2 h3 hc).elim
  cases op with
  | comment c => exact trivial
  | whole e d pre evs =>
    obtain ⟨hf, hd⟩ := h
    show Completed (writeWhole C e d pre ⟨zw, evs⟩).1 → (writeWhole C e d pre ⟨zw, evs⟩).1 = .ok ()
    refine done fun x hx => ⟨writeWhole_quits hf hd hz hx, ?_, ?_⟩
    · rintro rfl; exact NoP.writeWhole hd _ hx
    · rintro rfl
      have := Counts.writeWhole C e d pre ⟨zw, evs⟩ (Or.inr hx)
      rw [hx, if_neg (by rw [hz]; exact fun h => by cases h.2)] at this
      cases this
  | stream e pre evs acts fin =>
    obtain ⟨hf, hd, hx⟩ := h
    cases ho : openStream C e pre ⟨zw, evs⟩ with
    | mk r s =>
      cases r with
      | error x =>
        rw [runOp_open_error ho]
        have hx' : (openStream C e pre ⟨zw, evs⟩).1 = .error x := by rw [ho]
        refine ⟨fun hc => ?_, (fun r hr => by cases hr), (fun r hr => by cases hr)⟩
        rcases openStream_quits hf hz hx' with hw | rfl
        · exact absurd hw (completed_not hc)
        · exact absurd hx' (NoP.openStream hd _)
      | ok st =>
        obtain ⟨lf, extra, enc, o1, o2, o3, o4, o5, _⟩ := openStream_ok ho
        simp only at o4 o5
        have hzs : s.zw.forceNoZip64 = false := by rw [o4]; exact hz
        obtain ⟨rs, zw', st', em, f, a1, a2, a3, a4⟩ := runActs_spec acts s.zw st
        have hacts : ∀ r ∈ rs, Completed r → ∃ n, r = .ok n := by
          intro r hr hc
          have := runActs_error acts s.zw st r (by rw [a1]; exact hr)
          cases r with
          | ok n => exact ⟨n, rfl⟩
          | error x =>
            rcases this x rfl with hw | ⟨_, _, b, hb, hu⟩
            · exact absurd hw (completed_not hc)
            · refine (hx ?_).elim
              rw [o5] at hb
              rcases encFromRaw_ok o3 with ⟨rfl, _⟩ | ⟨rfl, p1, p2, _⟩
              · cases hb
              · cases hb
                exact ⟨p1, p2, hu.resolve_right fun h => by cases h.1⟩
        cases fin with
        | abandon =>
          rw [runOp_abandon ho a1]
          exact ⟨fun _ => rfl, hacts, (fun r hr => by cases hr)⟩
        | close evs' =>
          cases hc : closeStream st' ⟨zw', evs'⟩ with
          | mk r t =>
            rw [runOp_close ho a1 hc]
            have hzw : zw'.forceNoZip64 = false := by rw [a3.writer]; exact hzs
            refine ⟨fun _ => rfl, hacts, ?_⟩
            intro r' hr'
            cases hr'
            obtain ⟨enc', a6, _⟩ := a3.stream
            refine done fun x hx => ⟨closeStream_quits (s := ⟨zw', evs'⟩) hf hzw (st := st') ?_ (by rw [hc, hx]), ?_, ?_⟩
            · rw [a6, o5, hz]
            · rintro rfl; exact NoP.closeStream st' ⟨zw', evs'⟩ (by rw [hc, hx])
            · rintro rfl
              have := Counts.closeStream st' ⟨zw', evs'⟩ (Or.inr (by rw [hc, hx]; rfl))
              rw [hc, hx, if_neg (by rw [hzw]; exact fun h => by cases h.2)] at this
              cases this

/-- C52. Every call of a program whose calls are within the limits succeeds, and so does closing the archive. -/
theorem C52_program (C : Codec) (sink : Sink) (zw : ZipWriter) (hc : Created sink zw) (hz : zw.forceNoZip64 = false)
    (ops : List Op) (h : ∀ op ∈ ops, Sound op) (evs : List Ev) :
    (∀ r ∈ (runArchive C zw ops evs).1, Succeeded r) ∧
    (Completed (runArchive C zw ops evs).2.1 → ∃ sink', (runArchive C zw ops evs).2.1 = .ok sink') := by
  constructor
  · show ∀ r ∈ (runOps C zw ops).1, Succeeded r
    clear hc
    induction ops generalizing zw with
    | nil => intro r hr; cases hr
    | cons op ops ih =>
      intro r hr
      rcases List.mem_cons.1 (show r ∈ (runOp C zw op).1 :: (runOps C (runOp C zw op).2 ops).1 from hr) with rfl | hr
      · exact C52_call C zw hz op (h op List.mem_cons_self)
      · exact ih _ (by rw [(runOp_ext C zw op).force]; exact hz) (fun o ho => h o (List.mem_cons_of_mem _ ho)) r hr
  · intro hd
    cases hr : (runArchive C zw ops evs).2.1 with
    | ok s => exact ⟨s, rfl⟩
    | error x =>
      rcases closeArchive_error (zw := (runOps C zw ops).2) (evs := evs) hr
        (by rw [runOps_force, hz]; exact fun h => by cases h.2) with hw | rfl
      · rw [hr] at hd
        exact absurd hw.cast (completed_not hd)
      · exact absurd hr (C47_close C sink zw hc ops evs)

/-- Such calls do complete: a sink that takes at least one byte at a time lets a whole entry and the closing finish. -/
theorem C52_completes (C : Codec) (zw : ZipWriter) (hz : zw.forceNoZip64 = false) (e : ZipEntry) (d : Bytes) (pre : Bool)
    (hs : Sound (.whole e d pre [])) (c : Nat) :
    ∃ n, (writeWhole C e d pre ⟨zw, List.replicate n (.accept (c + 1))⟩).1 = .ok () := by
  obtain ⟨n, r, zw', hown, hrun⟩ := WCompletes.writeWhole (c := c) C e d pre zw
  have hrun := hrun 0
  refine ⟨n + 0, ?_⟩
  have := C52_call C zw hz (.whole e d pre (List.replicate (n + 0) (.accept (c + 1)))) hs
  have h1 : (runOp C zw (.whole e d pre (List.replicate (n + 0) (.accept (c + 1))))).1 = .whole r := by
    simp only [runOp, hrun]
  rw [h1] at this
  rw [hrun]
  refine this fun x hx => ⟨?_, fun io => ?_⟩
  · rintro rfl; exact hown _ hx
  · rintro rfl; exact hown _ hx

/-- C52 is about real programs: every call of `program` is within the limits. -/
example : ∀ op ∈ program, Sound op := by
  simp only [program, List.forall_mem_cons]
  exact ⟨⟨by decide +kernel, by decide⟩, ⟨by decide +kernel, by decide, fun h => by cases h.2.2⟩,
    ⟨by decide +kernel, by decide, fun h => by cases h.2.2⟩, trivial,
    ⟨by decide +kernel, by decide⟩, (fun _ h => by cases h)⟩

/-- So are entries with very long names. -/
example (n m : Nat) (h : n + m ≤ 65000) : Sound (.whole { ZipEntry.new ⟨.utf8, List.replicate n 97, none⟩ .deflate with
    comment := ⟨.utf8, List.replicate m 98, none⟩ } [1, 2, 3] false []) := by
  refine ⟨⟨?_, ?_, ?_⟩, (fun h => by cases h.1)⟩ <;>
    simp only [ZipEntry.new, ZipString.basic, Option.getD_none, List.length_replicate, allowances] <;> omega

end AsyncZip
