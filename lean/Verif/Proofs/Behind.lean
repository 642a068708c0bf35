import Verif.Spec.Behind
import Verif.Proofs.Write
/-!
# No writer call looks at what its sink holds
-/

namespace AsyncZip
open Wr Spec

namespace Behind

/-- The state of a call, on a sink that already held `pre`. -/
def st (pre : Sink) (s : WSt) : WSt := { s with zw := ZipWriter.behind pre s.zw }

/-- `m` does the same whatever the sink already holds. -/
def Blind {α : Type} (m : Wr α) : Prop := ∀ pre s, m (st pre s) = ((m s).1, st pre (m s).2)

/-- The same for an offset writer. -/
def ow (pre : Sink) (w : OffsetWriter) : OffsetWriter := { w with sink := Sink.behind pre w.sink }

theorem accept (pre : Sink) (w : OffsetWriter) (buf : Bytes) (k : Nat) :
    (ow pre w).accept buf k = ow pre (w.accept buf k) := by
  simp [ow, OffsetWriter.accept, Sink.behind]

theorem writeAllLoop' (pre : Sink) (evs : List Ev) : ∀ (w : OffsetWriter) (buf : Bytes),
    writeAllLoop (ow pre w) buf evs =
      ((writeAllLoop w buf evs).1, (writeAllLoop w buf evs).2.1, ow pre (writeAllLoop w buf evs).2.2.1,
        (writeAllLoop w buf evs).2.2.2) := by
  induction evs with
  | nil => intro w buf; unfold writeAllLoop; split <;> rfl
  | cons ev evs ih =>
    intro w buf
    unfold writeAllLoop
    split
    · rfl
    · cases ev with
      | pending => exact ih w buf
      | error c a => rfl
      | accept n => dsimp only; split
                    · rfl
                    · rw [accept]; exact ih _ _
      | drain n => dsimp only; split
                   · rfl
                   · rw [accept]; exact ih _ _

theorem pure {α : Type} (a : α) : Blind (Pure.pure a : Wr α) := fun _ _ => rfl
theorem fail {α : Type} (e : Fail) : Blind (Wr.fail e : Wr α) := fun _ _ => rfl
theorem lift {α : Type} (r : Res α) : Blind (Wr.lift r : Wr α) := fun _ _ => rfl

theorem modify {f : ZipWriter → ZipWriter} (h : ∀ pre w, f (ZipWriter.behind pre w) = ZipWriter.behind pre (f w)) :
    Blind (Wr.modify f) := fun pre s => by simp [Wr.modify, st, h]

theorem writeAll (buf : Bytes) : Blind (Wr.writeAll buf) := by
  intro pre s
  have := writeAllLoop' pre s.evs s.zw.writer buf
  simp only [Wr.writeAll]
  rw [show (st pre s).zw.writer = ow pre s.zw.writer from rfl, show (st pre s).evs = s.evs from rfl, this]
  rfl

theorem bind {α β : Type} {m : Wr α} {f : α → Wr β} (hm : Blind m) (hf : ∀ a, Blind (f a)) : Blind (m >>= f) := by
  intro pre s
  simp only [Bind.bind]
  rw [hm pre s]
  cases h : m s with
  | mk r t =>
    cases r with
    | ok a => exact hf a pre t
    | error e => rfl

/-- Looking at the writer, but not at what its sink holds. -/
theorem get {β : Type} {f : ZipWriter → Wr β} (hf : ∀ w, Blind (f w)) (h : ∀ pre w, f (ZipWriter.behind pre w) = f w) :
    Blind (Wr.get >>= f) := by
  intro pre s
  show f (ZipWriter.behind pre s.zw) (st pre s) = _
  rw [h, hf]
  rfl

theorem ite {α : Type} {p : Prop} [Decidable p] {m m' : Wr α} (h : Blind m) (h' : Blind m') :
    Blind (if p then m else m') := by split <;> assumption

theorem enforceZip64 : Blind AsyncZip.enforceZip64 :=
  get (fun _ => ite (fail _) (modify fun _ _ => rfl)) (fun _ _ => rfl)

theorem pushEntry (c : CdEntry) : Blind (AsyncZip.pushEntry c) :=
  bind (modify fun _ _ => rfl) fun _ =>
    get (fun _ => ite (ite (fail _) (modify fun _ _ => rfl)) (pure _)) (fun _ _ => rfl)

theorem enforceZip64Sizes (e : ZipEntry) : Blind (AsyncZip.enforceZip64Sizes e) :=
  ite (pure _) (bind enforceZip64 fun _ => pure _)

theorem enforceZip64Offset (b : Option Zip64Field) (n : Nat) : Blind (AsyncZip.enforceZip64Offset b n) :=
  ite (pure _) (bind enforceZip64 fun _ => pure _)

theorem wholePrepare (C : Codec) (e : ZipEntry) (data : Bytes) (p : Bool) : Blind (AsyncZip.wholePrepare C e data p) :=
  bind (lift _) fun _ => bind (enforceZip64Sizes _) fun _ =>
    get (fun _ => bind (enforceZip64Offset _ _) fun _ => bind (lift _) fun _ => bind (lift _) fun _ =>
      bind (lift _) fun _ => pure _) (fun _ _ => rfl)

theorem writeWhole (C : Codec) (e : ZipEntry) (data : Bytes) (p : Bool) : Blind (AsyncZip.writeWhole C e data p) :=
  bind (wholePrepare _ _ _ _) fun _ => bind (writeAll _) fun _ => bind (writeAll _) fun _ => bind (writeAll _) fun _ =>
    bind (lift _) fun _ => bind (writeAll _) fun _ => bind (writeAll _) fun _ => bind (lift _) fun _ => pushEntry _

theorem streamZip64 (e : ZipEntry) : Blind (AsyncZip.streamZip64 e) :=
  get (fun _ => ite (bind (modify fun _ _ => rfl) fun _ => pure _) (ite (fail _) (pure _))) (fun _ _ => rfl)

theorem streamWriteLfh (e : ZipEntry) : Blind (AsyncZip.streamWriteLfh e) :=
  bind (streamZip64 _) fun _ => bind (lift _) fun _ => bind (writeAll _) fun _ => bind (writeAll _) fun _ =>
    bind (writeAll _) fun _ => bind (lift _) fun _ => bind (writeAll _) fun _ => pure _

theorem openStream (C : Codec) (e : ZipEntry) (p : Bool) : Blind (AsyncZip.openStream C e p) :=
  get (fun _ => bind (streamWriteLfh _) fun _ => get (fun _ => bind (lift _) fun _ => pure _) (fun _ _ => rfl))
    (fun _ _ => rfl)

theorem encClose {C : Codec} (s : Option (EncState C)) : Blind (AsyncZip.encClose s) := by
  cases s with
  | none => exact pure _
  | some s => exact writeAll _

theorem closeStream {C : Codec} (x : EntryStream C) : Blind (AsyncZip.closeStream x) :=
  bind (encClose _) fun _ => get (fun _ => bind (lift _) fun _ => bind (writeAll _) fun _ => bind (writeAll _) fun _ =>
    bind (writeAll _) fun _ => bind (writeAll _) fun _ => bind (lift _) fun _ => pushEntry _) (fun _ _ => rfl)

theorem writeCdEntry (c : CdEntry) : Blind (AsyncZip.writeCdEntry c) :=
  bind (writeAll _) fun _ => bind (writeAll _) fun _ => bind (writeAll _) fun _ => bind (lift _) fun _ =>
    bind (writeAll _) fun _ => writeAll _

theorem writeCdEntries (cs : List CdEntry) : Blind (AsyncZip.writeCdEntries cs) := by
  induction cs with
  | nil => exact pure _
  | cons c cs ih => exact bind (writeCdEntry c) fun _ => ih

theorem closeCheckOffset (n : Nat) : Blind (AsyncZip.closeCheckOffset n) :=
  ite (get (fun _ => ite (fail _) (modify fun _ _ => rfl)) (fun _ _ => rfl)) (pure _)

theorem writeZip64End (a b c : Nat) : Blind (AsyncZip.writeZip64End a b c) :=
  get (fun _ => bind (writeAll _) fun _ => bind (writeAll _) fun _ => bind (writeAll _) fun _ => writeAll _)
    (fun _ _ => rfl)

/-- `m` does the same whatever the sink already holds, but hands the sink back. -/
def Hands (m : Wr Sink) : Prop := ∀ pre s, m (st pre s) = ((m s).1.map (Sink.behind pre), st pre (m s).2)

theorem Hands.bind {α : Type} {m : Wr α} {f : α → Wr Sink} (hm : Blind m) (hf : ∀ a, Hands (f a)) :
    Hands (m >>= f) := by
  intro pre s
  simp only [Bind.bind]
  rw [hm pre s]
  cases h : m s with
  | mk r t =>
    cases r with
    | ok a => exact hf a pre t
    | error e => rfl

theorem Hands.get {f : ZipWriter → Wr Sink} (hf : ∀ w, Hands (f w)) (h : ∀ pre w, f (ZipWriter.behind pre w) = f w) :
    Hands (Wr.get >>= f) := by
  intro pre s
  show f (ZipWriter.behind pre s.zw) (st pre s) = _
  rw [h, hf]
  rfl

theorem closeArchive : Hands AsyncZip.closeArchive :=
  Hands.get (fun _ => Hands.bind (writeCdEntries _) fun _ => Hands.get (fun _ => Hands.bind (closeCheckOffset _) fun _ =>
    Hands.get (fun _ => Hands.bind (ite (writeZip64End _ _ _) (pure _)) fun _ => Hands.bind (writeAll _) fun _ =>
      Hands.bind (writeAll _) fun _ => Hands.bind (writeAll _) fun _ => fun _ _ => rfl) (fun _ _ => rfl)) (fun _ _ => rfl))
    (fun _ _ => rfl)

theorem sinkWrite (pre : Sink) (buf : Bytes) (evs : List Ev) (w : OffsetWriter) :
    AsyncZip.sinkWrite (ow pre w) buf evs =
      ((AsyncZip.sinkWrite w buf evs).1, ow pre (AsyncZip.sinkWrite w buf evs).2) := by
  induction evs with
  | nil => rfl
  | cons ev evs ih =>
    cases ev with
    | pending => exact ih
    | error c a => rfl
    | accept n => simp only [AsyncZip.sinkWrite, accept]
    | drain n => simp only [AsyncZip.sinkWrite, accept]

theorem encWrite {C : Codec} (pre : Sink) (buf : Bytes) (evs : List Ev) : ∀ (w : OffsetWriter) (s : EncState C),
    AsyncZip.encWrite (ow pre w) s buf evs =
      ((AsyncZip.encWrite w s buf evs).1, ow pre (AsyncZip.encWrite w s buf evs).2.1,
        (AsyncZip.encWrite w s buf evs).2.2) := by
  induction evs with
  | nil => intro w s; rfl
  | cons ev evs ih =>
    intro w s
    cases ev with
    | pending => exact ih w s
    | error c a => rfl
    | accept n => rfl
    | drain n => simp only [AsyncZip.encWrite, accept]; exact ih _ _

theorem streamWrite {C : Codec} (pre : Sink) (zw : ZipWriter) (x : EntryStream C) (buf : Bytes) (evs : List Ev) :
    AsyncZip.streamWrite (ZipWriter.behind pre zw) x buf evs =
      ((AsyncZip.streamWrite zw x buf evs).1, ZipWriter.behind pre (AsyncZip.streamWrite zw x buf evs).2.1,
        (AsyncZip.streamWrite zw x buf evs).2.2) := by
  unfold AsyncZip.streamWrite
  rw [show (ZipWriter.behind pre zw).writer = ow pre zw.writer from rfl]
  cases x.enc with
  | none =>
    dsimp only
    rw [sinkWrite]
    cases AsyncZip.sinkWrite zw.writer buf evs with
    | mk r w => cases r <;> rfl
  | some s =>
    dsimp only
    rw [encWrite]
    cases s.fin with
    | true => rfl
    | false =>
      cases AsyncZip.encWrite zw.writer s buf evs with
      | mk r w => cases r <;> rfl

theorem sinkFlush (pre : Sink) (evs : List Ev) : ∀ (w : OffsetWriter),
    AsyncZip.sinkFlush (ow pre w) evs = ((AsyncZip.sinkFlush w evs).1, ow pre (AsyncZip.sinkFlush w evs).2) := by
  induction evs with
  | nil => intro w; rfl
  | cons ev evs ih =>
    intro w
    cases ev with
    | pending => exact ih w
    | error c k => rfl
    | accept k => simp [AsyncZip.sinkFlush, ow, Sink.behind, Nat.add_assoc]
    | drain k => simp [AsyncZip.sinkFlush, ow, Sink.behind, Nat.add_assoc]

theorem streamFlush {C : Codec} (pre : Sink) (zw : ZipWriter) (x : EntryStream C) (evs : List Ev) :
    AsyncZip.streamFlush (ZipWriter.behind pre zw) x evs =
      ((AsyncZip.streamFlush zw x evs).1, ZipWriter.behind pre (AsyncZip.streamFlush zw x evs).2.1,
        (AsyncZip.streamFlush zw x evs).2.2) := by
  unfold AsyncZip.streamFlush
  rw [show (ZipWriter.behind pre zw).writer = ow pre zw.writer from rfl]
  cases x.enc with
  | none => dsimp only; rw [sinkFlush]; rfl
  | some s =>
    dsimp only
    rw [writeAllLoop']
    cases s.fin with
    | true => rfl
    | false =>
      cases AsyncZip.writeAllLoop zw.writer (s.pend ++ (C.flush s.enc).2) evs with
      | mk r w => cases r <;> simp only [sinkFlush] <;> rfl

theorem streamShut {C : Codec} (pre : Sink) (zw : ZipWriter) (x : EntryStream C) (evs : List Ev) :
    AsyncZip.streamShut (ZipWriter.behind pre zw) x evs =
      ((AsyncZip.streamShut zw x evs).1, ZipWriter.behind pre (AsyncZip.streamShut zw x evs).2.1,
        (AsyncZip.streamShut zw x evs).2.2) := by
  unfold AsyncZip.streamShut
  rw [show (ZipWriter.behind pre zw).writer = ow pre zw.writer from rfl]
  cases x.enc with
  | none => rfl
  | some s =>
    dsimp only
    rw [writeAllLoop']
    rfl

theorem runActs {C : Codec} (pre : Sink) (acts : List StreamAct) : ∀ (zw : ZipWriter) (x : EntryStream C),
    AsyncZip.runActs (ZipWriter.behind pre zw) x acts =
      ((AsyncZip.runActs zw x acts).1, ZipWriter.behind pre (AsyncZip.runActs zw x acts).2.1,
        (AsyncZip.runActs zw x acts).2.2) := by
  induction acts with
  | nil => intro zw x; rfl
  | cons a acts ih =>
    intro zw x
    cases a with
    | write buf evs => simp only [AsyncZip.runActs, streamWrite, ih]
    | flush evs => simp only [AsyncZip.runActs, streamFlush, ih]
    | shut evs => simp only [AsyncZip.runActs, streamShut, ih]

theorem runOp (C : Codec) (pre : Sink) (zw : ZipWriter) (op : Op) :
    AsyncZip.runOp C (ZipWriter.behind pre zw) op =
      ((AsyncZip.runOp C zw op).1, ZipWriter.behind pre (AsyncZip.runOp C zw op).2) := by
  cases op with
  | whole e data p evs =>
    simp only [AsyncZip.runOp]
    rw [show (⟨ZipWriter.behind pre zw, evs⟩ : WSt) = st pre ⟨zw, evs⟩ from rfl, writeWhole]
    rfl
  | comment c => rfl
  | stream e p evs acts fin =>
    simp only [AsyncZip.runOp]
    rw [show (⟨ZipWriter.behind pre zw, evs⟩ : WSt) = st pre ⟨zw, evs⟩ from rfl, openStream]
    cases AsyncZip.openStream C e p ⟨zw, evs⟩ with
    | mk r s =>
      cases r with
      | error x => rfl
      | ok x =>
        dsimp only
        rw [show (st pre s).zw = ZipWriter.behind pre s.zw from rfl, runActs]
        dsimp only
        cases fin with
        | abandon => rfl
        | close evs' =>
          dsimp only
          rw [show (⟨ZipWriter.behind pre (AsyncZip.runActs s.zw x acts).2.1, evs'⟩ : WSt) =
            st pre ⟨(AsyncZip.runActs s.zw x acts).2.1, evs'⟩ from rfl, closeStream]
          rfl

theorem runOps (C : Codec) (pre : Sink) (ops : List Op) : ∀ zw : ZipWriter,
    AsyncZip.runOps C (ZipWriter.behind pre zw) ops =
      ((AsyncZip.runOps C zw ops).1, ZipWriter.behind pre (AsyncZip.runOps C zw ops).2) := by
  induction ops with
  | nil => intro zw; rfl
  | cons op ops ih => intro zw; simp only [AsyncZip.runOps, runOp, ih]

theorem runArchive (C : Codec) (pre : Sink) (zw : ZipWriter) (ops : List Op) (evs : List Ev) :
    AsyncZip.runArchive C (ZipWriter.behind pre zw) ops evs =
      ((AsyncZip.runArchive C zw ops evs).1, (AsyncZip.runArchive C zw ops evs).2.1.map (Sink.behind pre),
        ZipWriter.behind pre (AsyncZip.runArchive C zw ops evs).2.2) := by
  simp only [AsyncZip.runArchive, runOps]
  rw [show (⟨ZipWriter.behind pre (AsyncZip.runOps C zw ops).2, evs⟩ : WSt) =
    st pre ⟨(AsyncZip.runOps C zw ops).2, evs⟩ from rfl, closeArchive]
  rfl

end Behind
end AsyncZip
