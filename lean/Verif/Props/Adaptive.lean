import Verif.Spec.Adaptive
import Verif.Proofs.Samples
import Verif.Samples.Streams
/-!
# C73: programs that decide as they go, and vectored writes
-/

namespace AsyncZip
open Spec Wr

theorem find_first : ∀ bufs : List Bytes, (∃ pre b post, bufs = pre ++ b :: post ∧ (∀ x ∈ pre, x = []) ∧ b ≠ [] ∧
      (bufs.find? fun b => !b.isEmpty).getD [] = b) ∨
    ((∀ x ∈ bufs, x = []) ∧ (bufs.find? fun b => !b.isEmpty).getD [] = [])
  | [] => Or.inr ⟨fun _ h => (by cases h), rfl⟩
  | [] :: bufs => by
    have e : (([] :: bufs).find? fun b : Bytes => !b.isEmpty) = bufs.find? fun b => !b.isEmpty := rfl
    rw [e]
    rcases find_first bufs with ⟨pre, b, post, h1, h2, h3, h4⟩ | ⟨h1, h2⟩
    · left
      refine ⟨[] :: pre, b, post, by rw [h1]; rfl, fun x hx => ?_, h3, h4⟩
      rcases List.mem_cons.1 hx with rfl | hx
      · rfl
      · exact h2 x hx
    · right
      refine ⟨fun x hx => ?_, h2⟩
      rcases List.mem_cons.1 hx with rfl | hx
      · rfl
      · exact h1 x hx
  | (x :: b) :: bufs => Or.inl ⟨[], x :: b, bufs, rfl, fun _ h => (by cases h), (by simp), rfl⟩

/-- Every call amounts to a plain one. -/
theorem call_amounts {C : Codec} (zw : ZipWriter) (st : EntryStream C) (c : StreamCall) :
    ∃ a, Amounts c a ∧ ∀ acts, runActs zw st (a :: acts) =
      ((c.make zw st).1 :: (runActs (c.make zw st).2.1 (c.make zw st).2.2 acts).1,
        (runActs (c.make zw st).2.1 (c.make zw st).2.2 acts).2) := by
  cases c with
  | write buf evs => exact ⟨_, .write buf evs, fun acts => rfl⟩
  | flush evs => exact ⟨_, .flush evs, fun acts => rfl⟩
  | shut evs => exact ⟨_, .shut evs, fun acts => rfl⟩
  | vectored bufs evs =>
    rcases find_first bufs with ⟨pre, b, post, rfl, h2, h3, h4⟩ | ⟨h1, h2⟩
    · have e : StreamCall.make zw st (.vectored (pre ++ b :: post) evs) = streamWrite zw st b evs :=
        congrArg (fun x => streamWrite zw st x evs) h4
      exact ⟨_, .vectored pre post b evs h2 h3, fun acts => by rw [e]; rfl⟩
    · have e : StreamCall.make zw st (.vectored bufs evs) = streamWrite zw st [] evs :=
        congrArg (fun x => streamWrite zw st x evs) h2
      exact ⟨_, .nothing bufs evs h1, fun acts => by rw [e]; rfl⟩

theorem runClient_list {C : Codec} (client : StreamClient) : ∀ (n : Nat) (zw : ZipWriter) (st : EntryStream C) (seen : List (Res Nat)),
    ∃ acts rs zw' st', runClient client zw st n seen = (seen ++ rs, zw', st') ∧ runActs zw st acts = (rs, zw', st') ∧
      acts.length = rs.length ∧ acts.length ≤ n ∧
      (∀ i a, acts[i]? = some a → ∃ c, client (seen ++ rs.take i) = some c ∧ Amounts c a) ∧
      (acts.length = n ∨ client (seen ++ rs) = none)
  | 0, zw, st, seen => ⟨[], [], zw, st, by rw [List.append_nil]; rfl, rfl, rfl, Nat.le_refl 0, fun i a h => by simp at h, Or.inl rfl⟩
  | n + 1, zw, st, seen => by
    cases hc : client seen with
    | none =>
      refine ⟨[], [], zw, st, ?_, rfl, rfl, Nat.zero_le _, fun i a h => by simp at h, Or.inr (by rw [List.append_nil, hc])⟩
      rw [List.append_nil, runClient, hc]
    | some c =>
      obtain ⟨a, ha, hact⟩ := call_amounts zw st c
      obtain ⟨acts, rs, zw', st', h1, h2, h3, h4, h5, h6⟩ := runClient_list client n (c.make zw st).2.1 (c.make zw st).2.2
        (seen ++ [(c.make zw st).1])
      refine ⟨a :: acts, (c.make zw st).1 :: rs, zw', st', ?_, ?_, ?_, ?_, fun i a' hi => ?_, ?_⟩
      · rw [runClient, hc]
        show runClient client (c.make zw st).2.1 (c.make zw st).2.2 n (seen ++ [(c.make zw st).1]) = _
        rw [h1, List.append_assoc]
        rfl
      · rw [hact, h2]
      · rw [List.length_cons, List.length_cons, h3]
      · rw [List.length_cons]; omega
      · cases i with
        | zero =>
          obtain rfl : a = a' := by simpa using hi
          exact ⟨c, by rw [List.take_zero, List.append_nil, hc], ha⟩
        | succ i =>
          obtain ⟨c', k1, k2⟩ := h5 i a' (by simpa using hi)
          refine ⟨c', ?_, k2⟩
          rw [List.append_assoc] at k1
          exact k1
      · rcases h6 with h6 | h6
        · left; rw [List.length_cons, h6]
        · right
          rw [List.append_assoc] at h6
          exact h6

/-- C73, entries: whatever a program does with an open entry, deciding on each call by the results of those before, and using
vectored writes if it likes: it makes some list of plain calls, with the same results and the same effect. -/
theorem C73_entry (C : Codec) (client : StreamClient) (zw : ZipWriter) (st : EntryStream C) (n : Nat) :
    ∃ acts, runActs zw st acts = runClient client zw st n [] ∧ Followed client acts (runActs zw st acts).1 ∧
      acts.length = (runActs zw st acts).1.length ∧ (acts.length = n ∨ client (runActs zw st acts).1 = none) := by
  obtain ⟨acts, rs, zw', st', h1, h2, h3, _, h5, h6⟩ := runClient_list client n zw st []
  rw [List.nil_append] at h1 h6
  refine ⟨acts, by rw [h1, h2], fun i a hi => ?_, by rw [h2, h3], by rw [h2]; exact h6⟩
  rw [h2]
  exact h5 i a hi

/-- The list of calls of a program that decides as it goes. -/
theorem runProgram_list (C : Codec) (program : List OpResult → Option ArchiveCall) : ∀ (n : Nat) (zw : ZipWriter) (seen : List OpResult),
    ∃ ops, runProgram C program zw n seen = (seen ++ (runOps C zw ops).1, (runOps C zw ops).2)
  | 0, zw, seen => ⟨[], by rw [show (runOps C zw []).1 = [] from rfl, List.append_nil]; rfl⟩
  | n + 1, zw, seen => by
    cases hc : program seen with
    | none => exact ⟨[], by rw [runProgram, hc, show (runOps C zw []).1 = [] from rfl, List.append_nil]; rfl⟩
    | some c =>
      have hop : ∃ op, runOp C zw op = c.make C zw := by
        cases c with
        | whole e data pre evs => exact ⟨.whole e data pre evs, rfl⟩
        | comment c => exact ⟨.comment c, rfl⟩
        | stream e pre evs client k fin =>
          cases ho : openStream C e pre { zw, evs } with
          | mk r s =>
            cases r with
            | error x => exact ⟨.stream e pre evs [] .abandon, by simp only [runOp, ArchiveCall.make, ho]⟩
            | ok st =>
              obtain ⟨acts, h1, _⟩ := C73_entry C client s.zw st k
              refine ⟨.stream e pre evs acts (fin (runClient client s.zw st k []).1), ?_⟩
              simp only [runOp, ArchiveCall.make, ho, h1]
              cases fin (runClient client s.zw st k []).1 <;> rfl
      obtain ⟨op, hop⟩ := hop
      obtain ⟨ops, h⟩ := runProgram_list C program n (c.make C zw).2 (seen ++ [(c.make C zw).1])
      refine ⟨op :: ops, ?_⟩
      rw [runProgram, hc]
      show runProgram C program (c.make C zw).2 n (seen ++ [(c.make C zw).1]) = _
      rw [h, List.append_assoc]
      have e : runOps C zw (op :: ops) = ((runOp C zw op).1 :: (runOps C (runOp C zw op).2 ops).1, (runOps C (runOp C zw op).2 ops).2) := rfl
      rw [e, hop]
      rfl

/-- C73, archives: whatever a program does with a writer, deciding on each call by the results of those before: there is a list of
calls with the same results and the same effect, the final closing included. So what is proved of all lists of calls holds of
all programs. -/
theorem C73_archive (C : Codec) (program : List OpResult → Option ArchiveCall) (zw : ZipWriter) (n : Nat)
    (evs : List OpResult → List Ev) :
    ∃ ops, (runProgram C program zw n []).1 = (runArchive C zw ops (evs (runProgram C program zw n []).1)).1 ∧
      closeArchive ⟨(runProgram C program zw n []).2, evs (runProgram C program zw n []).1⟩ =
        ((runArchive C zw ops (evs (runProgram C program zw n []).1)).2.1,
          ⟨(runArchive C zw ops (evs (runProgram C program zw n []).1)).2.2,
            (closeArchive ⟨(runProgram C program zw n []).2, evs (runProgram C program zw n []).1⟩).2.evs⟩) := by
  obtain ⟨ops, h⟩ := runProgram_list C program n zw []
  rw [List.nil_append] at h
  refine ⟨ops, by rw [h]; rfl, ?_⟩
  rw [h]
  rfl

theorem flatten_advance : ∀ (bufs : List Bytes) (k : Nat), (advance k bufs).flatten = bufs.flatten.drop k
  | [], k => by rw [advance, List.flatten_nil, List.drop_nil]
  | b :: bs, k => by
    unfold advance
    rw [List.flatten_cons]
    split
    · rename_i h
      rw [flatten_advance bs, List.drop_append, List.drop_eq_nil_of_le h, List.nil_append]
    · rename_i h
      rw [List.flatten_cons, List.drop_append, Nat.sub_eq_zero_of_le (by omega), List.drop_zero]

theorem sinkWrite_le {w w' : OffsetWriter} {buf : Bytes} {k : Nat} : ∀ {evs : List Ev}, sinkWrite w buf evs = (.ok k, w') → k ≤ buf.length
  | [], h => by cases h
  | .pending :: evs, h => sinkWrite_le (evs := evs) h
  | .error _ _ :: _, h => by cases h
  | .accept n :: _, h => by cases h; exact Nat.min_le_right _ _
  | .drain n :: _, h => by cases h; exact Nat.min_le_right _ _

theorem encWrite_le {C : Codec} {buf : Bytes} {k : Nat} : ∀ {evs : List Ev} {w : OffsetWriter} {s : EncState C}
    {x : OffsetWriter × EncState C}, encWrite w s buf evs = (.ok k, x) → k ≤ buf.length
  | [], _, _, _, h => by cases h
  | .pending :: evs, _, _, _, h => encWrite_le (evs := evs) h
  | .error _ _ :: _, _, _, _, h => by cases h
  | .accept n :: _, _, _, _, h => by cases h; exact Nat.min_le_right _ _
  | .drain n :: evs, _, _, _, h => encWrite_le (evs := evs) h

theorem streamWrite_le {C : Codec} {zw : ZipWriter} {st : EntryStream C} {buf : Bytes} {evs : List Ev} {k : Nat}
    (h : (streamWrite zw st buf evs).1 = .ok k) : k ≤ buf.length := by
  unfold streamWrite at h
  cases he : st.enc with
  | none =>
    rw [he] at h
    simp only at h
    cases hw : sinkWrite zw.writer buf evs with
    | mk r w =>
      rw [hw] at h
      cases r with
      | error e => cases h
      | ok k' => cases h; exact sinkWrite_le hw
  | some s =>
    rw [he] at h
    simp only at h
    split at h
    · cases h
    · cases hw : encWrite zw.writer s buf evs with
      | mk r x =>
        rw [hw] at h
        cases r with
        | error e => cases h
        | ok k' => cases h; exact encWrite_le hw

theorem progress_snoc : ∀ (rs : List (Res Nat)) (r : Res Nat), progress (rs ++ [r]) =
    match progress rs, r with
    | some t, .ok (k + 1) => some (t + (k + 1))
    | _, _ => none
  | [], .ok 0 => rfl
  | [], .ok (k + 1) => by simp [progress]
  | [], .error e => rfl
  | .error e :: rs, r => rfl
  | .ok 0 :: rs, r => rfl
  | .ok (j + 1) :: rs, r => by
    rw [List.cons_append, progress, progress_snoc rs r, progress]
    cases progress rs with
    | none => rfl
    | some t =>
      cases r with
      | error e => rfl
      | ok k =>
        cases k with
        | zero => rfl
        | succ k =>
          simp only [Option.map_some, Option.some.injEq]
          omega

theorem progress_ok : ∀ {rs : List (Res Nat)} {t : Nat}, progress rs = some t → AllOk rs
  | [], _, _ => fun _ h => by cases h
  | .error e :: rs, _, h => by cases h
  | .ok 0 :: rs, _, h => by cases h
  | .ok (k + 1) :: rs, t, h => by
    rw [progress, Option.map_eq_some_iff] at h
    obtain ⟨u, h, _⟩ := h
    intro r hr
    rcases List.mem_cons.1 hr with rfl | hr
    · exact ⟨_, rfl⟩
    · exact progress_ok h r hr

theorem runClient_none {C : Codec} {client : StreamClient} {zw : ZipWriter} {st : EntryStream C} {seen : List (Res Nat)}
    (h : client seen = none) : ∀ n, runClient client zw st n seen = (seen, zw, st)
  | 0 => rfl
  | n + 1 => by rw [runClient, h]

theorem writeAll_runs {C : Codec} (bufs : List Bytes) (evs : Nat → List Ev) : ∀ (n : Nat) (zw : ZipWriter) (st : EntryStream C)
    (seen : List (Res Nat)) (t : Nat), progress seen = some t → t ≤ bufs.flatten.length → bufs.flatten.length - t ≤ n →
    ∃ acts rs zw' st', runClient (writeAllClient bufs evs) zw st n seen = (seen ++ rs, zw', st') ∧
      runActs zw st acts = (rs, zw', st') ∧ (AllOk rs ∧ accepted acts rs = bufs.flatten.drop t ∨
        ∃ rs' r rest, rs = rs' ++ [r] ∧ AllOk rs' ∧ (r = .ok 0 ∨ ∃ e, r = .error e) ∧ rest ≠ [] ∧
          accepted acts rs ++ rest = bufs.flatten.drop t) := by
  intro n
  induction n with
  | zero =>
    intro zw st seen t hp ht hn
    refine ⟨[], [], zw, st, by rw [List.append_nil]; rfl, rfl, Or.inl ⟨(fun _ h => by cases h), ?_⟩⟩
    rw [List.drop_eq_nil_of_le (by omega)]
    rfl
  | succ n ih =>
    intro zw st seen t hp ht hn
    by_cases hd : (advance t bufs).flatten = []
    · refine ⟨[], [], zw, st, ?_, rfl, Or.inl ⟨(fun _ h => by cases h), ?_⟩⟩
      · rw [List.append_nil]
        exact runClient_none (by rw [writeAllClient, hp]; exact if_pos hd) _
      · rw [← flatten_advance, hd]; rfl
    · have hc : writeAllClient bufs evs seen = some (.vectored (advance t bufs) (evs seen.length)) := by
        rw [writeAllClient, hp]
        exact if_neg hd
      obtain ⟨a, ha, hact⟩ := call_amounts zw st (.vectored (advance t bufs) (evs seen.length))
      generalize hm : StreamCall.make zw st (.vectored (advance t bufs) (evs seen.length)) = m at hact
      obtain ⟨r, zw1, st1⟩ := m
      have hrun : runClient (writeAllClient bufs evs) zw st (n + 1) seen =
          runClient (writeAllClient bufs evs) zw1 st1 n (seen ++ [r]) := by
        rw [runClient, hc]
        simp only
        rw [hm]
      rw [hrun]
      obtain ⟨buf, rest, hwr, hb, hfl⟩ : ∃ buf rest, a = .write buf (evs seen.length) ∧ buf ≠ [] ∧
          bufs.flatten.drop t = buf ++ rest := by
        rw [← flatten_advance]
        generalize advance t bufs = l at ha hd
        cases ha with
        | vectored pre post buf _ h hb =>
          refine ⟨buf, post.flatten, rfl, hb, ?_⟩
          rw [List.flatten_append, List.flatten_eq_nil_iff.2 h]
          rfl
        | nothing _ _ h => exact absurd (List.flatten_eq_nil_iff.2 h) hd
      subst hwr
      have hprog := progress_snoc seen r
      rw [hp] at hprog
      have hfail : (r = .ok 0 ∨ ∃ e, r = .error e) → ∃ acts rs zw' st',
          runClient (writeAllClient bufs evs) zw1 st1 n (seen ++ [r]) = (seen ++ rs, zw', st') ∧
          runActs zw st acts = (rs, zw', st') ∧ (AllOk rs ∧ accepted acts rs = bufs.flatten.drop t ∨
            ∃ rs' r rest, rs = rs' ++ [r] ∧ AllOk rs' ∧ (r = .ok 0 ∨ ∃ e, r = .error e) ∧ rest ≠ [] ∧
              accepted acts rs ++ rest = bufs.flatten.drop t) := by
        intro hr
        refine ⟨[.write buf (evs seen.length)], [r], zw1, st1, ?_, by rw [hact]; rfl, Or.inr ⟨[], r, bufs.flatten.drop t, rfl,
          (fun _ h => by cases h), hr, by rw [hfl]; simp [hb], ?_⟩⟩
        · refine runClient_none ?_ _
          rw [writeAllClient, hprog]
          rcases hr with rfl | ⟨e, rfl⟩ <;> rfl
        · rcases hr with rfl | ⟨e, rfl⟩
          · simp [accepted]
          · simp [accepted]
      cases r with
      | error e => exact hfail (Or.inr ⟨e, rfl⟩)
      | ok k =>
        cases k with
        | zero => exact hfail (Or.inl rfl)
        | succ k =>
          have hle : k + 1 ≤ buf.length := by
            have := hact []
            have h1 : (runActs zw st [.write buf (evs seen.length)]).1 = [.ok (k + 1)] := by rw [this]; rfl
            have h2 : (runActs zw st [.write buf (evs seen.length)]).1 = [(streamWrite zw st buf (evs seen.length)).1] := rfl
            rw [h2] at h1
            exact streamWrite_le (List.cons.inj h1).1
          have hlen : bufs.flatten.length - t = buf.length + rest.length := by
            rw [← List.length_drop, hfl, List.length_append]
          obtain ⟨acts, rs, zw', st', g1, g2, g3⟩ := ih zw1 st1 (seen ++ [.ok (k + 1)]) (t + (k + 1)) hprog (by omega) (by omega)
          have hdrop : bufs.flatten.drop t = buf.take (k + 1) ++ bufs.flatten.drop (t + (k + 1)) := by
            rw [← List.drop_drop, hfl, List.drop_append, Nat.sub_eq_zero_of_le hle, List.drop_zero, ← List.append_assoc,
              List.take_append_drop]
          refine ⟨.write buf (evs seen.length) :: acts, .ok (k + 1) :: rs, zw', st', ?_, by rw [hact, g2], ?_⟩
          · rw [g1, List.append_assoc]; rfl
          · rcases g3 with ⟨g3, g4⟩ | ⟨rs', r, rest', rfl, g4, g5, g6, g7⟩
            · left
              refine ⟨fun x hx => ?_, ?_⟩
              · rcases List.mem_cons.1 hx with rfl | hx
                · exact ⟨_, rfl⟩
                · exact g3 x hx
              · rw [accepted, g4, hdrop]
            · right
              refine ⟨.ok (k + 1) :: rs', r, rest', rfl, fun x hx => ?_, g5, g6, ?_⟩
              · rcases List.mem_cons.1 hx with rfl | hx
                · exact ⟨_, rfl⟩
                · exact g4 x hx
              · rw [accepted, List.append_assoc, g7, hdrop]

/-- C73, writing all of it: a client that goes on until all of its buffers are written needs at most as many calls as there are
bytes. In the end everything has been accepted, in order; or the last call failed or accepted nothing, and what was accepted is
a proper beginning of the data. -/
theorem C73_write_all (C : Codec) (bufs : List Bytes) (evs : Nat → List Ev) (zw : ZipWriter) (st : EntryStream C) (n : Nat)
    (hn : bufs.flatten.length ≤ n) :
    ∃ acts rs zw' st', runClient (writeAllClient bufs evs) zw st n [] = (rs, zw', st') ∧ runActs zw st acts = (rs, zw', st') ∧
      (AllOk rs ∧ accepted acts rs = bufs.flatten ∨
        ∃ rs' r rest, rs = rs' ++ [r] ∧ AllOk rs' ∧ (r = .ok 0 ∨ ∃ e, r = .error e) ∧ rest ≠ [] ∧
          accepted acts rs ++ rest = bufs.flatten) :=
  writeAll_runs bufs evs n zw st [] 0 rfl (Nat.zero_le _) hn

/-- C73 holds although, and only because, the entry's writer does not forward vectored writes: the counting writer below it does
not count them. -/
theorem C73_counting : ∃ (w : OffsetWriter) (bufs : List Bytes) (k : Nat), k ≤ bufs.flatten.length ∧
    (w.acceptVectored bufs k).sink = (w.accept bufs.flatten k).sink ∧
    (w.acceptVectored bufs k).offset ≠ (w.accept bufs.flatten k).offset :=
  ⟨⟨⟨[], 0, 0⟩, 0⟩, [[1], [2, 3]], 2, by decide, by decide, by decide⟩

namespace Samples

/-- A program that streams three bytes from three buffers into an entry, until all are written, and drops the entry if that fails. -/
def careful : List OpResult → Option ArchiveCall := fun seen =>
  if seen.length = 0 then
    some (.stream deflatedEntry false eager (writeAllClient [[7], [], [8, 9]] fun _ => [.pending, .accept 1]) 5 fun rs =>
      if (progress rs).isNone then .abandon else .close eager)
  else none

end Samples

/-- C73, concretely: the program needs three writes, though it has two buffers with something in them, and writes what a program
writes that has one buffer and writes it at once. -/
example : (runProgram Samples.markCodec Samples.careful Samples.fresh 7 []).1 = [.stream (.ok ()) [.ok 1, .ok 1, .ok 1] (some (.ok ()))] ∧
    (closeArchive ⟨(runProgram Samples.markCodec Samples.careful Samples.fresh 7 []).2, Samples.eager⟩).1 =
      .ok ⟨Samples.streamedBytes, 0, 0⟩ ∧
    (runArchive Samples.markCodec Samples.fresh Samples.streamOne Samples.eager).2.1 = .ok ⟨Samples.streamedBytes, 0, 0⟩ := by
  refine ⟨rfl, ?_, ?_⟩ <;> decide +kernel

end AsyncZip
