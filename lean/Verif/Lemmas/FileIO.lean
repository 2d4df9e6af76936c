import Verif.Model.FileIO

/-! # Lemmas about reading, writing and exporting files -/

namespace Verif.FileIO
open Verif

variable {D C H : Type}

theorem openFile_other {h5 h5' : Dict String (Option D)} {b : Bool} {path : String} {m : Mode} (h : openFile h5 b path m = .ok h5') {p : String}
    (hp : p ≠ path) : Dict.get? h5' p = Dict.get? h5 p := by
  cases m <;> (unfold openFile at h; simp only at h; split at h <;> cases h <;> first | rfl | exact Dict.get?_set_ne hp)

theorem writeHerd_h5 (env : Env D C H) (s : St D H) (io : IOObj D) (c : C) (herd : Option H) : (writeHerd env s io c herd).h5 = s.h5 ∧
    (writeHerd env s io c herd).ios = s.ios := by
  unfold writeHerd
  split <;> exact ⟨rfl, rfl⟩

theorem writeBuilder_other (env : Env D C H) (s : St D H) (io : IOObj D) (b : D) {p : String} (hp : p ≠ io.path) :
    Dict.get? (writeBuilder env s io b).1.h5 p = Dict.get? s.h5 p := by
  unfold writeBuilder
  split
  · exact Dict.get?_set_ne hp
  · rfl

theorem writeBuilder_ios (env : Env D C H) (s : St D H) (io : IOObj D) (b : D) : (writeBuilder env s io b).1.ios = s.ios := by
  unfold writeBuilder
  split <;> rfl

theorem writeBuilder_zips (env : Env D C H) (s : St D H) (io : IOObj D) (b : D) : (writeBuilder env s io b).1.zips = s.zips := by
  unfold writeBuilder
  split <;> rfl

theorem remember_h5 (s : St D H) (i : Nat) : (remember s i).h5 = s.h5 ∧ (remember s i).zips = s.zips := by
  unfold remember
  split
  · exact ⟨rfl, rfl⟩
  · split <;> exact ⟨rfl, rfl⟩

theorem exportRemember_h5 (s : St D H) (j : Nat) (src : IOObj D) (k : Option C) (cl : Bool) : (exportRemember s j src k cl).h5 = s.h5 ∧
    (exportRemember s j src k cl).zips = s.zips := by
  unfold exportRemember
  split
  · exact ⟨rfl, rfl⟩
  · split
    · exact ⟨rfl, rfl⟩
    · exact remember_h5 s j

/-- the object `k` is the one it was, except that it may have been closed or have read its file -/
def Same (io io' : IOObj D) : Prop :=
  io'.path = io.path ∧ io'.mode = io.mode ∧ io'.herdPath = io.herdPath ∧ (∀ d, io.seen = some d → io'.seen = some d) ∧ (io'.isOpen = true → io.isOpen = true)

theorem Same.refl (io : IOObj D) : Same io io := ⟨rfl, rfl, rfl, fun _ h => h, fun h => h⟩

theorem Same.trans {a b c : IOObj D} (h : Same a b) (h' : Same b c) : Same a c :=
  ⟨h'.1.trans h.1, h'.2.1.trans h.2.1, h'.2.2.1.trans h.2.2.1, fun d hd => h'.2.2.2.1 d (h.2.2.2.1 d hd), fun ho => h.2.2.2.2 (h'.2.2.2.2 ho)⟩

theorem set_same {ios : List (IOObj D)} {i : Nat} {x y : IOObj D} (hx : ios[i]? = some x) (h : Same x y) {k : Nat} {io : IOObj D} (hk : ios[k]? = some io) :
    ∃ io', (ios.set i y)[k]? = some io' ∧ Same io io' := by
  by_cases e : i = k
  · subst e
    rw [hx] at hk
    cases hk
    refine ⟨y, ?_, h⟩
    rw [List.getElem?_set_self]
    exact (List.getElem?_eq_some_iff.1 hx).1
  · exact ⟨io, by rw [List.getElem?_set_ne e]; exact hk, Same.refl io⟩

theorem remember_at {s : St D H} {i k : Nat} {io : IOObj D} (hk : s.ios[k]? = some io) : ∃ io', (remember s i).ios[k]? = some io' ∧ Same io io' := by
  unfold remember
  split
  · exact ⟨io, hk, Same.refl io⟩
  · rename_i x hx
    split
    · refine set_same (y := ⟨x.path, x.mode, x.isOpen, x.herdPath, some (contents s x)⟩) hx ⟨rfl, rfl, rfl, fun d hd => ?_, fun h => h⟩ hk
      simp only [contents, hd, Option.getD_some]
    · exact ⟨io, hk, Same.refl io⟩

theorem remember_length (s : St D H) (i : Nat) : (remember s i).ios.length = s.ios.length := by
  unfold remember
  split
  · rfl
  · split
    · exact List.length_set
    · rfl

theorem exportRemember_at {s : St D H} {j k : Nat} {src io : IOObj D} {c : Option C} {cl : Bool} (hk : s.ios[k]? = some io) :
    ∃ io', (exportRemember s j src c cl).ios[k]? = some io' ∧ Same io io' := by
  unfold exportRemember
  split
  · exact ⟨io, hk, Same.refl io⟩
  · split
    · exact ⟨io, hk, Same.refl io⟩
    · exact remember_at hk

theorem exportRemember_length (s : St D H) (j : Nat) (src : IOObj D) (c : Option C) (cl : Bool) : (exportRemember s j src c cl).ios.length = s.ios.length := by
  unfold exportRemember
  split
  · rfl
  · split
    · rfl
    · exact remember_length s j

/-- what an operation does to a file: nothing, or the file is made, or something is put into it -/
theorem step_file (env : Env D C H) (s : St D H) (o : Op C H) (p : String) :
    Dict.get? (step env s o).1.h5 p = Dict.get? s.h5 p ∨
    (∃ m h, o = .create p m h ∧ m ≠ .r ∧ m ≠ .rp ∧ (m = .w ∨ Dict.get? s.h5 p = none) ∧ Dict.get? (step env s o).1.h5 p = some none) ∨
    ∃ io ∈ s.ios, ∃ b, io.path = p ∧ io.mode ≠ .r ∧ Dict.get? (step env s o).1.h5 p = some (env.put ((Dict.get? s.h5 p).getD none) b).1 := by
  have hwb : ∀ (t : St D H) io b, io ∈ s.ios → io.mode ≠ .r → t.h5 = s.h5 → Dict.get? (writeBuilder env t io b).1.h5 p = Dict.get? s.h5 p ∨
      ∃ io' ∈ s.ios, ∃ b', io'.path = p ∧ io'.mode ≠ .r ∧ Dict.get? (writeBuilder env t io b).1.h5 p = some (env.put ((Dict.get? s.h5 p).getD none) b').1 := by
    intro t io b hio hm ht
    by_cases hp : p = io.path
    · cases ho : io.isOpen with
      | false =>
        left
        unfold writeBuilder
        simp only [ho, Bool.false_eq_true, if_false]
        rw [ht]
      | true =>
        right
        refine ⟨io, hio, b, hp.symm, hm, ?_⟩
        unfold writeBuilder
        simp only [ho, if_true]
        rw [ht, hp]
        exact Dict.get?_set_self
    · left
      rw [writeBuilder_other env t io b hp, ht]
  have hmem : ∀ {i io}, s.ios[i]? = some io → io ∈ s.ios := fun h => List.mem_of_getElem? h
  cases o with
  | create path m hp =>
    show Dict.get? (create (C := C) s path m hp).1.h5 p = _ ∨ _
    by_cases hpp : p = path
    · subst hpp
      have hnone : ∀ {x : String}, ¬ Dict.has s.h5 x = true → Dict.get? s.h5 x = none := by
        intro x hx
        exact Dict.get?_eq_none_iff.2 (fun hk => hx (Dict.has_iff.2 hk))
      unfold create
      cases m with
      | r => left; unfold openFile; simp only; split <;> rename_i h <;> (split at h <;> cases h) <;> rfl
      | rp => left; unfold openFile; simp only; split <;> rename_i h <;> (split at h <;> cases h) <;> rfl
      | w =>
        by_cases hb : busy s p = true
        · left; simp [openFile, hb]
        · right; left
          refine ⟨.w, hp, rfl, by decide, by decide, .inl rfl, ?_⟩
          simp [step, create, openFile, hb, Dict.get?_set_self]
      | wm =>
        by_cases hb : Dict.has s.h5 p = true
        · left; simp [openFile, hb]
        · right; left
          refine ⟨.wm, hp, rfl, by decide, by decide, .inr (hnone hb), ?_⟩
          simp [step, create, openFile, hb, Dict.get?_set_self]
      | x =>
        by_cases hb : Dict.has s.h5 p = true
        · left; simp [openFile, hb]
        · right; left
          refine ⟨.x, hp, rfl, by decide, by decide, .inr (hnone hb), ?_⟩
          simp [step, create, openFile, hb, Dict.get?_set_self]
      | a =>
        by_cases hb : Dict.has s.h5 p = true
        · left; simp [openFile, hb]
        · right; left
          refine ⟨.a, hp, rfl, by decide, by decide, .inr (hnone hb), ?_⟩
          simp [step, create, openFile, hb, Dict.get?_set_self]
    · left
      unfold create
      split
      · rfl
      · rename_i h5 h
        exact openFile_other h hpp
  | read i =>
    left
    unfold step
    simp only
    split
    · rfl
    · split
      · rfl
      · rw [(remember_h5 s i).1]
  | write i c herd =>
    unfold step
    simp only
    cases hio : s.ios[i]? with
    | none => left; rfl
    | some io =>
      simp only
      unfold write
      by_cases hm : io.mode = .r
      · rw [if_pos hm]; left; rfl
      · rw [if_neg hm]
        cases env.build c with
        | error e => left; simp only; rw [(writeHerd_h5 env s io c herd).1]
        | ok b =>
          simp only
          rcases hwb (writeHerd env s io c herd) io b (hmem hio) hm (writeHerd_h5 env s io c herd).1 with h | h
          · exact .inl h
          · exact .inr (.inr h)
  | «export» i j hdf5 c link =>
    unfold step
    simp only
    cases hio : s.ios[i]? with
    | none => left; rfl
    | some io =>
      cases hsrc : s.ios[j]? with
      | none => left; rfl
      | some src =>
        simp only
        unfold «export»
        by_cases hm : io.mode = .w
        · rw [if_neg (by simp [hm])]
          split
          · left; rfl
          · split
            · left; rw [(exportRemember_h5 s j src c _).1]
            · left; rw [(exportRemember_h5 s j src c _).1]
            · rename_i b _
              rcases hwb _ io b (hmem hio) (by rw [hm]; decide) (exportRemember_h5 s j src c (!link)).1 with h | h
              · exact .inl h
              · exact .inr (.inr h)
        · rw [if_pos hm]; left; rfl
  | close i =>
    left
    unfold step
    simp only
    unfold close
    split <;> rfl
  | reopen i => left; rfl

/-- the objects there are stay the same, except that they may be closed or read their files -/
theorem step_at (env : Env D C H) (s : St D H) (o : Op C H) {k : Nat} {io : IOObj D} (hk : s.ios[k]? = some io) :
    ∃ io', (step env s o).1.ios[k]? = some io' ∧ Same io io' := by
  cases o with
  | create path m hp =>
    show ∃ io', (create (C := C) s path m hp).1.ios[k]? = some io' ∧ _
    unfold create
    split
    · exact ⟨io, hk, Same.refl io⟩
    · refine ⟨io, ?_, Same.refl io⟩
      show (s.ios ++ _)[k]? = _
      rw [List.getElem?_append_left (List.getElem?_eq_some_iff.1 hk).1]
      exact hk
  | read i =>
    unfold step
    simp only
    split
    · exact ⟨io, hk, Same.refl io⟩
    · split
      · exact ⟨io, hk, Same.refl io⟩
      · exact remember_at hk
  | write i c herd =>
    refine ⟨io, ?_, Same.refl io⟩
    unfold step
    simp only
    split
    · exact hk
    · unfold write
      split
      · exact hk
      · split
        · rw [(writeHerd_h5 env s _ c herd).2]; exact hk
        · rw [writeBuilder_ios, (writeHerd_h5 env s _ c herd).2]; exact hk
  | «export» i j hdf5 c link =>
    unfold step
    simp only
    split
    · unfold «export»
      split
      · exact ⟨io, hk, Same.refl io⟩
      · split
        · exact ⟨io, hk, Same.refl io⟩
        · split
          · exact exportRemember_at hk
          · exact exportRemember_at hk
          · rw [writeBuilder_ios]; exact exportRemember_at hk
    · exact ⟨io, hk, Same.refl io⟩
  | close i =>
    show ∃ io', (close s i).ios[k]? = some io' ∧ _
    unfold close
    split
    · exact ⟨io, hk, Same.refl io⟩
    · rename_i x hx
      exact set_same (y := ⟨x.path, x.mode, false, x.herdPath, x.seen⟩) hx ⟨rfl, rfl, rfl, fun d hd => hd, fun h => (by cases h)⟩ hk
  | reopen i => exact ⟨io, hk, Same.refl io⟩

/-- an object is added only by `create`, at the end, and has not read its file -/
theorem step_new (env : Env D C H) (s : St D H) (o : Op C H) : (step env s o).1.ios.length = s.ios.length ∨
    ∃ p m h, o = .create p m h ∧ (step env s o).1.ios = s.ios ++ [⟨p, m, true, h, none⟩] := by
  cases o with
  | create path m hp =>
    show (create (C := C) s path m hp).1.ios.length = _ ∨ ∃ p m' h, _ ∧ (create (C := C) s path m hp).1.ios = _
    unfold create
    split
    · exact .inl rfl
    · exact .inr ⟨path, m, hp, rfl, rfl⟩
  | read i =>
    left
    unfold step
    simp only
    split
    · rfl
    · split
      · rfl
      · exact remember_length s i
  | write i c herd =>
    left
    unfold step
    simp only
    split
    · rfl
    · unfold write
      split
      · rfl
      · split
        · rw [(writeHerd_h5 env s _ c herd).2]
        · rw [writeBuilder_ios, (writeHerd_h5 env s _ c herd).2]
  | «export» i j hdf5 c link =>
    left
    unfold step
    simp only
    split
    · unfold «export»
      split
      · rfl
      · split
        · rfl
        · split
          · exact exportRemember_length s j _ c _
          · exact exportRemember_length s j _ c _
          · rw [writeBuilder_ios]; exact exportRemember_length s j _ c _
    · rfl
  | close i =>
    left
    show (close s i).ios.length = _
    unfold close
    split
    · rfl
    · exact List.length_set
  | reopen i => exact .inl rfl

/-- the objects there are after an operation -/
theorem step_ios (env : Env D C H) (s : St D H) (o : Op C H) : ∀ io ∈ (step env s o).1.ios,
    (∃ m h, o = .create io.path m h ∧ io.mode = m) ∨ ∃ io' ∈ s.ios, io'.path = io.path ∧ io'.mode = io.mode := by
  intro io hio
  rcases step_new env s o with h | ⟨p, m, h, e, e'⟩
  · right
    obtain ⟨k, hk, hk'⟩ := List.getElem_of_mem hio
    rw [h] at hk
    obtain ⟨io', h1, h2⟩ := step_at env s o (List.getElem?_eq_getElem hk)
    rw [List.getElem?_eq_getElem (h ▸ hk), hk'] at h1
    cases h1
    exact ⟨_, List.getElem_mem hk, h2.1.symm, h2.2.1.symm⟩
  · rw [e'] at hio
    rcases List.mem_append.1 hio with h1 | h1
    · exact .inr ⟨io, h1, rfl, rfl⟩
    · rw [List.mem_singleton] at h1
      subst h1
      exact .inl ⟨m, h, e, rfl⟩

end Verif.FileIO
