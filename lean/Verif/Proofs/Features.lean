import Verif.Spec.Features
/-!
# Readers of builds without some of the methods, compared with the full one
-/

namespace AsyncZip
open Rd Spec

instance (F : Features) (m : Compression) : Decidable (Features.Has F m) := by
  cases m <;> unfold Features.Has <;> infer_instance

/-- What `tryFromWith` does is what `tryFrom` does, unless the build lacks the method. -/
theorem tryFromWith_eq (F : Features) (v : UInt16) :
    (∃ m, Compression.tryFrom v = .ok m ∧ v = m.toU16 ∧ Compression.tryFromWith F v =
      if Features.Has F m then .ok m else .error (.err (.compressionNotSupported v))) ∨
    (∃ e, Compression.tryFrom v = .error e ∧ Compression.tryFromWith F v = .error e) := by
  unfold Compression.tryFrom Compression.tryFromWith
  by_cases h0 : v = 0
  · subst h0; exact Or.inl ⟨.stored, rfl, rfl, rfl⟩
  by_cases h8 : v = 8
  · subst h8; refine Or.inl ⟨.deflate, rfl, rfl, ?_⟩; cases h : F.deflate <;> simp [Features.Has, h]
  by_cases h9 : v = 9
  · subst h9; refine Or.inl ⟨.deflate64, rfl, rfl, ?_⟩; cases h : F.deflate64 <;> simp [Features.Has, h]
  by_cases h12 : v = 12
  · subst h12; refine Or.inl ⟨.bz, rfl, rfl, ?_⟩; cases h : F.bzip2 <;> simp [Features.Has, h]
  by_cases h14 : v = 14
  · subst h14; refine Or.inl ⟨.lzma, rfl, rfl, ?_⟩; cases h : F.lzma <;> simp [Features.Has, h]
  by_cases h93 : v = 93
  · subst h93; refine Or.inl ⟨.zstd, rfl, rfl, ?_⟩; cases h : F.zstd <;> simp [Features.Has, h]
  by_cases h95 : v = 95
  · subst h95; refine Or.inl ⟨.xz, rfl, rfl, ?_⟩; cases h : F.xz <;> simp [Features.Has, h]
  · refine Or.inr ⟨.err (.compressionNotSupported v), ?_, ?_⟩ <;> simp [h0, h8, h9, h12, h14, h93, h95]

/-- `n` does what `m` does, except that it fails for want of a method where the result of `m` has one that the build lacks, and
possibly where `m` fails otherwise. `ms` are the methods of a result. -/
def Thins (F : Features) {α : Type} (ms : α → List Compression) (n m : Rd α) : Prop :=
  ∀ s, (∀ a s', m s = (.ok a, s') → (∀ x ∈ ms a, Features.Has F x) → n s = (.ok a, s')) ∧
    (∀ a s', m s = (.ok a, s') → (∃ x ∈ ms a, ¬ Features.Has F x) →
      ∃ v, FirstLacking F (ms a) v ∧ (n s).1 = .error (.err (.compressionNotSupported v))) ∧
    (∀ e s', m s = (.error e, s') → n s = (.error e, s') ∨
      ∃ v, Lacks F v ∧ (n s).1 = .error (.err (.compressionNotSupported v)))

theorem FirstLacking.lacks {F : Features} {ms : List Compression} {v : UInt16} (h : FirstLacking F ms v) : Lacks F v := by
  obtain ⟨_, m, _, _, _, h1, h2⟩ := h
  exact ⟨m, h2, h1⟩

namespace Thins
variable {F : Features} {α β : Type}

/-- Where no result has a method, the two do the same. -/
theorem same {m : Rd α} {ms : α → List Compression} (h : ∀ s a s', m s = (.ok a, s') → ∀ x ∈ ms a, Features.Has F x) : Thins F ms m m :=
  fun s => ⟨fun _ _ h1 _ => h1, fun a s' h1 ⟨x, hx, hn⟩ => absurd (h s a s' h1 x hx) hn, fun _ _ h1 => Or.inl h1⟩

/-- The same first step. -/
theorem bind {m : Rd α} {n f : α → Rd β} {ms : β → List Compression} (h : ∀ a, Thins F ms (n a) (f a)) :
    Thins F ms (m >>= n) (m >>= f) := by
  intro s
  simp only [Bind.bind]
  rcases m s with ⟨r | a, s1⟩
  · exact ⟨fun _ _ h1 => (by cases h1), fun _ _ h1 => (by cases h1), fun e s' h1 => Or.inl h1⟩
  · exact h a s1

theorem ite {c : Prop} [Decidable c] {a b a' b' : Rd α} {ms : α → List Compression} (h : Thins F ms a a') (h' : Thins F ms b b') :
    Thins F ms (if c then a else b) (if c then a' else b') := by
  split
  · exact h
  · exact h'

/-- The step that turns the number into a method. -/
theorem method {v : UInt16} {f : Compression → Rd α} {ms : α → List Compression}
    (h : ∀ c s a s', f c s = (.ok a, s') → ms a = [c]) :
    Thins F ms (Rd.lift (Compression.tryFromWith F v) >>= f) (Rd.lift (Compression.tryFrom v) >>= f) := by
  rcases tryFromWith_eq F v with ⟨m, h1, hv, h2⟩ | ⟨e, h1, h2⟩
  · rw [h1, h2]
    by_cases hm : Features.Has F m
    · rw [if_pos hm]
      refine same fun s a s' ha x hx => ?_
      have := h m s a s' ha
      rw [this, List.mem_singleton] at hx
      rw [hx]; exact hm
    · rw [if_neg hm]
      refine fun s => ⟨fun a s' ha hx => ?_, fun a s' ha _ => ?_, fun e s' _ => Or.inr ⟨v, ⟨m, hv, hm⟩, rfl⟩⟩
      · have := h m s a s' ha
        rw [this] at hx
        exact absurd (hx m List.mem_cons_self) hm
      · have := h m s a s' ha
        refine ⟨v, ⟨[], m, [], this, by simp, hm, hv⟩, rfl⟩
  · rw [h1, h2]
    exact same fun s a s' ha => by cases ha

end Thins

/-- Whenever `m` gives a result, the result satisfies `P`. -/
def Gives {α : Type} (m : Rd α) (P : α → Prop) : Prop := ∀ s a s', m s = (.ok a, s') → P a

theorem Gives.bind {α β : Type} {m : Rd α} {f : α → Rd β} {P : β → Prop} (h : ∀ a, Gives (f a) P) : Gives (m >>= f) P := by
  intro s b s' hb
  simp only [Bind.bind] at hb
  rcases hm : m s with ⟨r | a, s1⟩
  · rw [hm] at hb; cases hb
  · rw [hm] at hb; exact h a s1 b s' hb

theorem Gives.pure {α : Type} {a : α} {P : α → Prop} (h : P a) : Gives (Pure.pure a) P := by
  intro s b s' hb; cases hb; exact h

theorem Gives.fail {α : Type} {e : Fail} {P : α → Prop} : Gives (Rd.fail e) P := by
  intro s b s' hb; cases hb

theorem Gives.ite {α : Type} {c : Prop} [Decidable c] {a b : Rd α} {P : α → Prop} (h : Gives a P) (h' : Gives b P) :
    Gives (if c then a else b) P := by
  split
  · exact h
  · exact h'

theorem cdRecord_thins (F : Features) (b : Build) :
    Thins F (fun e => [e.entry.compression]) (cdRecordWith F b) (cdRecord b) :=
  .bind fun _ => .bind fun _ => .bind fun _ => .method fun _ => Gives.bind fun _ => Gives.bind fun _ => Gives.bind fun _ =>
    Gives.pure rfl

theorem cdLoop_thins (F : Features) (b : Build) (n : Nat) :
    Thins F (fun es => es.map fun e => e.entry.compression) (cdLoopWith F b n) (cdLoop b n) := by
  induction n with
  | zero => exact .same fun s a s' h x hx => by cases h; cases hx
  | succ n ih =>
    intro s
    obtain ⟨a1, a2, a3⟩ := cdRecord_thins F b s
    simp only [cdLoopWith, cdLoop, Bind.bind]
    rcases hm : cdRecord b s with ⟨r | e, s1⟩
    · simp only
      refine ⟨fun _ _ h1 => (by cases h1), fun _ _ h1 => (by cases h1), fun x s' h1 => ?_⟩
      cases h1
      rcases a3 r s1 hm with h2 | ⟨v, hv, h2⟩
      · rw [h2]; exact Or.inl rfl
      · refine Or.inr ⟨v, hv, ?_⟩
        rcases hn : cdRecordWith F b s with ⟨y, s2⟩
        rw [hn] at h2
        simp only at h2
        subst h2
        rfl
    · simp only
      obtain ⟨b1, b2, b3⟩ := ih s1
      by_cases he : Features.Has F e.entry.compression
      · rw [a1 e s1 hm (by simpa using he)]
        simp only
        rcases hl : cdLoop b n s1 with ⟨r | es, s2⟩
        · simp only
          refine ⟨fun _ _ h1 => (by cases h1), fun _ _ h1 => (by cases h1), fun x s' h1 => ?_⟩
          cases h1
          rcases b3 r s2 hl with h2 | ⟨v, hv, h2⟩
          · rw [h2]; exact Or.inl rfl
          · refine Or.inr ⟨v, hv, ?_⟩
            rcases hn : cdLoopWith F b n s1 with ⟨y, s3⟩
            rw [hn] at h2
            simp only at h2
            subst h2
            rfl
        · simp only
          refine ⟨fun a s' h1 hx => ?_, fun a s' h1 hx => ?_, fun _ _ h1 => by cases h1⟩
          · cases h1
            rw [b1 es s2 hl fun x hx' => hx x (List.mem_cons_of_mem _ hx')]
            rfl
          · cases h1
            obtain ⟨x, hx1, hx2⟩ := hx
            have hx1 : x ∈ es.map fun e => e.entry.compression := by
              rcases List.mem_cons.1 hx1 with rfl | h
              · exact absurd he hx2
              · exact h
            obtain ⟨v, ⟨p, m, q, h3, h4, h5, h6⟩, h7⟩ := b2 es s2 hl ⟨x, hx1, hx2⟩
            refine ⟨v, ⟨e.entry.compression :: p, m, q, by simp [h3], ?_, h5, h6⟩, ?_⟩
            · intro y hy
              rcases List.mem_cons.1 hy with rfl | h
              · exact he
              · exact h4 y h
            · rcases hn : cdLoopWith F b n s1 with ⟨y, s3⟩
              rw [hn] at h7
              simp only at h7
              subst h7
              rfl
      · obtain ⟨v, hv, h2⟩ := a2 e s1 hm ⟨_, List.mem_cons_self, he⟩
        obtain ⟨m, hm1, hm2⟩ := FirstLacking.lacks hv
        have hv' : v = e.entry.compression.toU16 := by
          obtain ⟨p, m, q, h3, _, _, h6⟩ := hv
          cases p with
          | nil => cases h3; exact h6
          | cons x p => simp at h3
        rcases hn : cdRecordWith F b s with ⟨y, s2⟩
        rw [hn] at h2
        simp only at h2
        subst h2
        simp only
        refine ⟨fun a s' h1 hx => ?_, fun a s' h1 hx => ⟨v, ?_, rfl⟩, fun x s' h1 => Or.inr ⟨v, ⟨m, hm1, hm2⟩, rfl⟩⟩
        · rcases hl : cdLoop b n s1 with ⟨r | es, s2⟩
          · rw [hl] at h1; cases h1
          · rw [hl] at h1; cases h1
            exact absurd (hx _ List.mem_cons_self) he
        · rcases hl : cdLoop b n s1 with ⟨r | es, s2⟩
          · rw [hl] at h1; cases h1
          · rw [hl] at h1; cases h1
            exact ⟨[], _, _, rfl, by simp, he, hv'⟩

/-- The result wrapped up. -/
theorem Thins.map {F : Features} {α β : Type} {ms : α → List Compression} {ms' : β → List Compression} {n m : Rd α} {g : α → β}
    (h : Thins F ms n m) (hg : ∀ a, ms' (g a) = ms a) : Thins F ms' (n >>= fun a => Pure.pure (g a)) (m >>= fun a => Pure.pure (g a)) := by
  intro s
  obtain ⟨a1, a2, a3⟩ := h s
  simp only [Bind.bind]
  rcases hm : m s with ⟨r | a, s1⟩
  · simp only
    refine ⟨fun _ _ h1 => (by cases h1), fun _ _ h1 => (by cases h1), fun x s' h1 => ?_⟩
    cases h1
    rcases a3 r s1 hm with h2 | ⟨v, hv, h2⟩
    · rw [h2]; exact Or.inl rfl
    · refine Or.inr ⟨v, hv, ?_⟩
      rcases hn : n s with ⟨y, s2⟩
      rw [hn] at h2
      simp only at h2
      subst h2
      rfl
  · simp only
    refine ⟨fun x s' h1 hx => ?_, fun x s' h1 hx => ?_, fun _ _ h1 => by cases h1⟩
    · cases h1
      rw [hg] at hx
      rw [a1 a s1 hm hx]
      rfl
    · cases h1
      rw [hg] at hx ⊢
      obtain ⟨v, hv, h2⟩ := a2 a s1 hm hx
      refine ⟨v, hv, ?_⟩
      rcases hn : n s with ⟨y, s2⟩
      rw [hn] at h2
      simp only at h2
      subst h2
      rfl

theorem openFile_thins (F : Features) (b : Build) :
    Thins F (fun f => f.entries.map fun e => e.entry.compression) (openFileWith F b) (openFile b) := by
  refine .bind fun _ => .bind fun _ => .bind fun _ => .bind fun _ => .bind fun ⟨_, _⟩ => .ite (.same fun s a s' h => by cases h) ?_
  refine .bind fun _ => .map ?_ fun _ => rfl
  unfold cdWith cd
  exact .ite (.same fun s a s' h => by cases h) (cdLoop_thins F b _)

theorem lfh_thins (F : Features) (b : Build) :
    Thins F (fun e => e.toList.map fun e => e.compression) (lfhWith F b) (lfh b) := by
  refine .bind fun _ => .ite ?_ (.ite (.same fun s a s' h => by cases h; simp) (.same fun s a s' h => by cases h))
  exact .bind fun _ => .bind fun _ => .method fun _ => Gives.bind fun _ => Gives.bind fun _ =>
    Gives.ite Gives.fail (Gives.ite Gives.fail (Gives.pure rfl))

end AsyncZip
