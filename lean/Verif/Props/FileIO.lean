import Verif.Lemmas.FileIO

/-!
# C166–C170: reading, writing and exporting files
-/

namespace Verif.FileIO
open Verif

variable {D C H : Type}

namespace Ex

/-- files of lists of numbers; a container is the list, `0` cannot be built -/
def env : Env (List Nat) (List Nat) (List Nat) where
  build := fun c => if 0 ∈ c then .error .valueError else .ok c
  rebuild := fun c => if 0 ∈ c then .error .valueError else .ok c
  builderOf := fun c => if c = [] then none else some (decide (c = [9]))
  put := fun old b => (some (old.getD [] ++ b), none)
  construct := fun d => d
  addHerd := fun h c => h.getD [] ++ c

/-- a file with values and one without -/
def s : St (List Nat) (List Nat) := ⟨[("p", some [1, 2]), ("q", none)], [("z", [7])], []⟩

end Ex

/-! ## C166: modes -/

/-- a file that is opened for reading only, however often, keeps its contents whatever is done -/
theorem C166_readonly (env : Env D C H) (ops : List (Op C H)) (s : St D H) (p : String) (hs : ∀ io ∈ s.ios, io.path = p → io.mode = .r)
    (ho : ∀ o ∈ ops, ∀ m h, o = .create p m h → m = .r) : Dict.get? (run env s ops).h5 p = Dict.get? s.h5 p := by
  induction ops generalizing s with
  | nil => rfl
  | cons o os ih =>
    show Dict.get? (run env (step env s o).1 os).h5 p = _
    rw [ih]
    · rcases step_file env s o p with h | ⟨m, hh, e, hm, _⟩ | ⟨io, hio, b, e, hm, _⟩
      · exact h
      · exact (hm (ho o (by simp) m hh e)).elim
      · exact (hm (hs io hio e)).elim
    · intro io hio hp
      rcases step_ios env s o io hio with ⟨m, h, e, e'⟩ | ⟨io', h1, h2, h3⟩
      · rw [e']
        exact ho o (by simp) m h (by rw [e, hp])
      · rw [← h3]; exact hs io' h1 (h2.trans hp)
    · exact fun o' ho' => ho o' (List.mem_cons_of_mem _ ho')

example : (run Ex.env Ex.s [.create "p" .r none, .read 0, .write 0 [3] none, .create "q" .w none, .export 1 0 true none true, .close 0]).h5 =
    [("p", some [1, 2]), ("q", some [1, 2])] := by decide +kernel

/-- a file that is not truncated by mode `w` is never lost, and its contents change only as writing changes them -/
theorem C166_kept (env : Env D C H) (R : Option D → Option D → Prop) (hrefl : ∀ d, R d d) (htrans : ∀ a b c, R a b → R b c → R a c)
    (hput : ∀ d b, R d (env.put d b).1) (ops : List (Op C H)) (s : St D H) (p : String) (d : Option D) (hd : Dict.get? s.h5 p = some d)
    (ho : ∀ o ∈ ops, ∀ h, o ≠ .create p .w h) : ∃ d', Dict.get? (run env s ops).h5 p = some d' ∧ R d d' := by
  induction ops generalizing s d with
  | nil => exact ⟨d, hd, hrefl d⟩
  | cons o os ih =>
    have hstep : ∃ d', Dict.get? (step env s o).1.h5 p = some d' ∧ R d d' := by
      rcases step_file env s o p with h | ⟨m, hh, e, hm, hm', h1 | h1, h2⟩ | ⟨io, hio, b, e, hm, h⟩
      · exact ⟨d, by rw [h, hd], hrefl d⟩
      · subst h1; exact (ho o (by simp) hh e).elim
      · rw [hd] at h1; cases h1
      · rw [hd] at h; exact ⟨_, h, hput d b⟩
    obtain ⟨d1, h1, r1⟩ := hstep
    obtain ⟨d2, h2, r2⟩ := ih (step env s o).1 d1 h1 (fun o' ho' => ho o' (List.mem_cons_of_mem _ ho'))
    exact ⟨d2, h2, htrans _ _ _ r1 r2⟩

example : (run Ex.env Ex.s [.create "p" .x none, .create "p" .a none, .write 0 [3] none, .create "p" .wm none, .create "p" .rp none, .write 1 [4] none]).h5 =
    [("p", some [1, 2, 3, 4]), ("q", none)] := by decide +kernel

/-- the modes: `r` and `r+` need a file, `w-` and `x` need none, `w` empties it, `a` keeps it; and an error changes nothing -/
theorem C166_create (s : St D H) (p : String) (m : Mode) (h : Option String) :
    let out := create (C := C) s p m h
    (m = .r ∨ m = .rp → (Dict.get? s.h5 p = none → out = (s, .failed .unsupported)) ∧
      (∀ d, Dict.get? s.h5 p = some d → out.2 = .done ∧ out.1.h5 = s.h5)) ∧
    (m = .wm ∨ m = .x → (Dict.get? s.h5 p = none → out.2 = .done ∧ Dict.get? out.1.h5 p = some none) ∧
      (∀ d, Dict.get? s.h5 p = some d → out = (s, .failed .unsupported))) ∧
    (m = .w → (∀ io ∈ s.ios, io.path = p → io.isOpen = false) → out.2 = .done ∧ Dict.get? out.1.h5 p = some none) ∧
    (m = .a → out.2 = .done ∧ (Dict.get? s.h5 p = none → Dict.get? out.1.h5 p = some none) ∧
      ∀ d, Dict.get? s.h5 p = some d → out.1.h5 = s.h5) ∧
    (∀ q, q ≠ p → Dict.get? out.1.h5 q = Dict.get? s.h5 q) ∧
    (out.2 = .done → ∃ io, out.1.ios = s.ios ++ [io] ∧ io.path = p ∧ io.mode = m ∧ io.isOpen = true) := by
  have hno : Dict.get? s.h5 p = none → Dict.has s.h5 p = false := fun h => by
    rw [Bool.eq_false_iff]; intro hh; exact (Dict.get?_eq_none_iff.1 h) (Dict.has_iff.1 hh)
  have hyes : ∀ d, Dict.get? s.h5 p = some d → Dict.has s.h5 p = true := fun d h =>
    Dict.has_iff.2 (List.mem_map.2 ⟨_, Dict.mem_of_get? h, rfl⟩)
  refine ⟨?_, ?_, ?_, ?_, ?_, ?_⟩
  · rintro (e | e) <;> subst e <;> refine ⟨fun h => ?_, fun d h => ?_⟩
    · simp [create, openFile, hno h]
    · simp [create, openFile, hyes d h]
    · simp [create, openFile, hno h]
    · simp [create, openFile, hyes d h]
  · rintro (e | e) <;> subst e <;> refine ⟨fun h => ?_, fun d h => ?_⟩
    · simp [create, openFile, hno h, Dict.get?_set_self]
    · simp [create, openFile, hyes d h]
    · simp [create, openFile, hno h, Dict.get?_set_self]
    · simp [create, openFile, hyes d h]
  · intro e hb
    subst e
    have : busy s p = false := by
      rw [Bool.eq_false_iff]
      intro h
      obtain ⟨io, hio, h⟩ := List.any_eq_true.1 h
      simp only [Bool.and_eq_true, decide_eq_true_eq] at h
      rw [hb io hio h.2] at h
      cases h.1
    simp [create, openFile, this, Dict.get?_set_self]
  · intro e
    subst e
    cases hd : Dict.get? s.h5 p with
    | none => simp [create, openFile, hno hd, Dict.get?_set_self]
    | some d => simp [create, openFile, hyes d hd]
  · intro q hq
    unfold create
    split
    · rfl
    · rename_i h5 h; exact openFile_other h hq
  · intro h
    unfold create at h ⊢
    split at h
    · cases h
    · exact ⟨_, rfl, rfl, rfl, rfl⟩

example : (create (C := Nat) Ex.s "p" .wm none).2 = .failed .unsupported ∧ (create (C := Nat) Ex.s "new" .r none).2 = .failed .unsupported := by decide +kernel

/-- what a mode does not allow is refused and nothing happens, not even to the HERD file -/
theorem C166_refused (env : Env D C H) (s : St D H) (io src : IOObj D) (j : Nat) (c : C) (herd : Option H) (hdf5 link : Bool) (k : Option C) :
    (io.mode = .r → write env s io c herd = (s, .failed .unsupported)) ∧
    (∀ i, s.ios[i]? = some io → io.mode = .w ∨ io.mode = .wm ∨ io.mode = .x → step env s (.read i) = (s, .failed .unsupported)) ∧
    (io.mode ≠ .w → «export» env s io j src hdf5 k link = (s, .failed .unsupported)) := by
  refine ⟨fun h => ?_, fun i hi h => ?_, fun h => ?_⟩
  · unfold write; rw [if_pos h]
  · unfold step; simp only [hi]; rw [if_pos h]; unfold read; rw [if_pos h]
  · unfold «export»; rw [if_pos h]

example : (step Ex.env (run Ex.env Ex.s [.create "p" .r (some "z")]) (.write 0 [3] none)).2 = .failed .unsupported := by decide +kernel

/-! ## C167: reading -/

theorem read_step (env : Env D C H) (s : St D H) (i : Nat) (io : IOObj D) (hio : s.ios[i]? = some io) (ho : io.isOpen = true)
    (hm : io.mode = .r ∨ io.mode = .rp ∨ io.mode = .a) : step env s (.read i) = (remember s i, match contents s io with
      | none => .failed .unsupported
      | some d => .value (some (env.construct d))) := by
  have hm' : ¬ (io.mode = .w ∨ io.mode = .wm ∨ io.mode = .x) := by
    rcases hm with h | h | h <;> rw [h] <;> decide
  unfold step
  simp only [hio]
  rw [if_neg hm']
  unfold read
  rw [if_neg hm']
  cases hc : contents s io <;> simp [readBase, readBuilder, ho, hc]

/-- the first read of an open file gives the container for what is in it, or an error if there is nothing; and changes no file -/
theorem C167_read_partial (env : Env D C H) (s : St D H) (i : Nat) (io : IOObj D) (hio : s.ios[i]? = some io) (ho : io.isOpen = true)
    (hm : io.mode = .r ∨ io.mode = .rp ∨ io.mode = .a) (hs : io.seen = none) :
    (∀ d, Dict.get? s.h5 io.path = some (some d) → (step env s (.read i)).2 = .value (some (env.construct d))) ∧
    (Dict.get? s.h5 io.path = some none → (step env s (.read i)).2 = .failed .unsupported) ∧
    (step env s (.read i)).1.h5 = s.h5 ∧ (step env s (.read i)).1.zips = s.zips := by
  rw [read_step env s i io hio ho hm]
  refine ⟨fun d hd => ?_, fun hd => ?_, (remember_h5 s i).1, (remember_h5 s i).2⟩
  · simp [contents, hs, hd]
  · simp [contents, hs, hd]

example : (step Ex.env (run Ex.env Ex.s [.create "p" .r none]) (.read 0)).2 = .value (some [1, 2]) ∧
    (step Ex.env (run Ex.env Ex.s [.create "q" .r none]) (.read 0)).2 = .failed .unsupported := by decide +kernel

/-- an object that has read its file gives the same again, whatever has been done since -/
theorem C167_again (env : Env D C H) (s : St D H) (i : Nat) (io io' : IOObj D) (hio : s.ios[i]? = some io) (hm : io.mode = .r ∨ io.mode = .rp ∨ io.mode = .a)
    (ops : List (Op C H)) (hio' : (run env (step env s (.read i)).1 ops).ios[i]? = some io') (ho : io'.isOpen = true) :
    (step env (run env (step env s (.read i)).1 ops) (.read i)).2 = (step env s (.read i)).2 := by
  have hrun : ∀ (ops : List (Op C H)) (t : St D H) (x : IOObj D), t.ios[i]? = some x → ∃ y, (run env t ops).ios[i]? = some y ∧ Same x y := by
    intro ops
    induction ops with
    | nil => intro t x hx; exact ⟨x, hx, Same.refl x⟩
    | cons o os ih =>
      intro t x hx
      obtain ⟨y, h1, h2⟩ := step_at env t o hx
      obtain ⟨z, h3, h4⟩ := ih _ y h1
      exact ⟨z, h3, h2.trans h4⟩
  obtain ⟨x, hx, hxs⟩ := step_at env s (.read i) hio
  obtain ⟨y, hy, hys⟩ := hrun ops _ x hx
  rw [hio'] at hy
  cases hy
  have hopen : io.isOpen = true := hxs.2.2.2.2 (hys.2.2.2.2 ho)
  have hseen : x.seen = some (contents s io) := by
    rw [read_step env s i io hio hopen hm] at hx
    simp only [remember, hio, hopen, if_true] at hx
    rw [List.getElem?_set_self (List.getElem?_eq_some_iff.1 hio).1] at hx
    cases hx
    rfl
  rw [read_step env _ i io' hio' ho (by rw [hys.2.1, hxs.2.1]; exact hm), read_step env s i io hio hopen hm]
  have : contents (run env (remember s i) ops) io' = contents s io := by
    show io'.seen.getD _ = _
    rw [hys.2.2.2.1 _ hseen]
    rfl
  simp only [this]

example : (run Ex.env Ex.s [.create "p" .a none, .read 0, .write 0 [3] none, .create "q" .w none, .read 0]).ios[0]? = some ⟨"p", .a, true, none, some (some [1, 2])⟩ := by
  decide +kernel

/-- what has been written with an object is what another one reads -/
theorem C167_written_partial (env : Env D C H) (s : St D H) (i j : Nat) (io jo : IOObj D) (hio : s.ios[i]? = some io) (hjo : s.ios[j]? = some jo)
    (hp : jo.path = io.path) (ho : io.isOpen = true) (hj : jo.isOpen = true) (hm : io.mode ≠ .r) (hr : jo.mode = .r ∨ jo.mode = .rp ∨ jo.mode = .a)
    (hs : jo.seen = none) (c : C) (b d d' : D) (herd : Option H) (hb : env.build c = .ok b) (hd : Dict.get? s.h5 io.path = some (some d))
    (hput : env.put (some d) b = (some d', none)) :
    (step env s (.write i c herd)).2 = .done ∧
      (step env (step env s (.write i c herd)).1 (.read j)).2 = .value (some (env.construct d')) := by
  have hw : step env s (.write i c herd) = (⟨Dict.set s.h5 io.path (some d'), (writeHerd env s io c herd).zips, s.ios⟩, .done) := by
    unfold step
    simp only [hio]
    unfold write
    rw [if_neg hm]
    obtain ⟨e1, e2⟩ := writeHerd_h5 env s io c herd
    simp only [hb, writeBuilder, ho, if_true, e1, e2, hd, Option.getD_some, hput]
  rw [hw]
  refine ⟨rfl, ?_⟩
  exact (C167_read_partial env ⟨Dict.set s.h5 io.path (some d'), (writeHerd env s io c herd).zips, s.ios⟩ j jo hjo hj hr hs).1 d' (by
    rw [hp]; exact Dict.get?_set_self)

example : (step Ex.env (run Ex.env Ex.s [.create "p" .a none, .create "p" .r none, .write 0 [3] none]) (.read 1)).2 = .value (some [1, 2, 3]) := by decide +kernel

/-- an object that found a file without values does not see what has been written to it since, not even with the same object -/
theorem C167_stale_fails : (run Ex.env Ex.s [.create "q" .a none, .read 0, .write 0 [3] none]).h5 = [("p", some [1, 2]), ("q", some [3])] ∧
    (step Ex.env (run Ex.env Ex.s [.create "q" .a none, .read 0, .write 0 [3] none]) (.read 0)).2 = .failed .unsupported := by decide +kernel

/-- reading a file that has been closed gives `None`, without an error -/
theorem C167_closed_fails : (step Ex.env (run Ex.env Ex.s [.create "p" .r none, .close 0]) (.read 0)).2 = .value none := by decide +kernel

/-- `open` does not open a file again that has been closed -/
theorem C167_reopen_fails : (step Ex.env (run Ex.env Ex.s [.create "p" .a none, .close 0, .reopen 0]) (.read 0)).2 = .value none ∧
    (step Ex.env (run Ex.env Ex.s [.create "p" .a none, .close 0, .reopen 0]) (.write 0 [3] none)).2 = .failed .valueError := by decide +kernel

/-! ## C168: the record of builders that have been written -/

/-- builders have addresses and numbers of their own; what is marked belongs to builders there still are -/
structure TInv (t : Track) : Prop where
  addr : ∀ b ∈ t.live, ∀ b' ∈ t.live, b.addr = b'.addr → b = b'
  uid : ∀ b ∈ t.live, ∀ b' ∈ t.live, b.uid = b'.uid → b = b'
  fresh : ∀ b ∈ t.live, b.uid < t.next
  marks : ∀ k, k ∈ t.marks ↔ ∃ b ∈ t.live, b.uid ∈ t.written ∧ hash b = k

/-- no builder that has been marked goes -/
def Keeps : Track → List TOp → Prop
  | _, [] => True
  | t, o :: os => (∀ u, o = .free u → u ∉ t.written) ∧ Keeps (tstep t o) os

theorem tstep_inv {t : Track} (h : TInv t) (hw : ∀ u ∈ t.written, u < t.next) (o : TOp) (hk : ∀ u, o = .free u → u ∉ t.written) :
    TInv (tstep t o) ∧ ∀ u ∈ (tstep t o).written, u < (tstep t o).next := by
  cases o with
  | alloc a n =>
    unfold tstep
    simp only
    split
    · exact ⟨h, hw⟩
    · rename_i hb
      have hb : ∀ b ∈ t.live, b.addr ≠ a := fun b hm e => hb (List.any_eq_true.2 ⟨b, hm, by simpa using e⟩)
      refine ⟨⟨?_, ?_, ?_, ?_⟩, fun u hu => Nat.lt_succ_of_lt (hw u hu)⟩
      · intro b hm b' hm' e
        rcases List.mem_append.1 hm with h1 | h1 <;> rcases List.mem_append.1 hm' with h2 | h2
        · exact h.addr b h1 b' h2 e
        · rw [List.mem_singleton] at h2; subst h2; exact (hb b h1 e).elim
        · rw [List.mem_singleton] at h1; subst h1; exact (hb b' h2 e.symm).elim
        · rw [List.mem_singleton] at h1 h2; rw [h1, h2]
      · intro b hm b' hm' e
        rcases List.mem_append.1 hm with h1 | h1 <;> rcases List.mem_append.1 hm' with h2 | h2
        · exact h.uid b h1 b' h2 e
        · rw [List.mem_singleton] at h2; subst h2; have := h.fresh b h1; simp only at e; omega
        · rw [List.mem_singleton] at h1; subst h1; have := h.fresh b' h2; simp only at e; omega
        · rw [List.mem_singleton] at h1 h2; rw [h1, h2]
      · intro b hm
        rcases List.mem_append.1 hm with h1 | h1
        · exact Nat.lt_succ_of_lt (h.fresh b h1)
        · rw [List.mem_singleton] at h1; subst h1; exact Nat.lt_succ_self _
      · intro k
        show k ∈ t.marks ↔ _
        rw [h.marks k]
        constructor
        · rintro ⟨b, h1, h2, h3⟩; exact ⟨b, List.mem_append.2 (.inl h1), h2, h3⟩
        · rintro ⟨b, h1, h2, h3⟩
          rcases List.mem_append.1 h1 with h1 | h1
          · exact ⟨b, h1, h2, h3⟩
          · rw [List.mem_singleton] at h1; subst h1; exact absurd (hw _ h2) (Nat.lt_irrefl _)
  | free u =>
    have hu := hk u rfl
    have hsub : ∀ b, b ∈ t.live.filter (fun b => decide (b.uid ≠ u)) → b ∈ t.live := fun b hb => (List.mem_filter.1 hb).1
    refine ⟨⟨?_, ?_, ?_, ?_⟩, hw⟩
    · exact fun b hm b' hm' e => h.addr b (hsub b hm) b' (hsub b' hm') e
    · exact fun b hm b' hm' e => h.uid b (hsub b hm) b' (hsub b' hm') e
    · exact fun b hm => h.fresh b (hsub b hm)
    · intro k
      show k ∈ t.marks ↔ _
      rw [h.marks k]
      constructor
      · rintro ⟨b, h1, h2, h3⟩
        exact ⟨b, List.mem_filter.2 ⟨h1, by simp only [decide_eq_true_eq]; intro e; exact hu (e ▸ h2)⟩, h2, h3⟩
      · rintro ⟨b, h1, h2, h3⟩; exact ⟨b, hsub b h1, h2, h3⟩
  | setWritten u =>
    unfold tstep
    simp only
    split
    · exact ⟨h, hw⟩
    · rename_i b hb
      have hbl := List.mem_of_find?_eq_some hb
      have hbu : b.uid = u := by simpa using List.find?_some hb
      refine ⟨⟨h.addr, h.uid, h.fresh, ?_⟩, ?_⟩
      · intro k
        simp only [List.mem_cons]
        constructor
        · rintro (e | hm)
          · exact ⟨b, hbl, .inl hbu, e.symm⟩
          · obtain ⟨b', h1, h2, h3⟩ := (h.marks k).1 hm; exact ⟨b', h1, .inr h2, h3⟩
        · rintro ⟨b', h1, h2 | h2, h3⟩
          · left; rw [← h3, h.uid b' h1 b hbl (h2.trans hbu.symm)]
          · exact .inr ((h.marks k).2 ⟨b', h1, h2, h3⟩)
      · intro u' hu'
        rcases List.mem_cons.1 hu' with e | hu'
        · rw [e, ← hbu]; exact h.fresh b hbl
        · exact hw u' hu'

/-- as long as no builder goes that has been marked, `get_written` tells exactly which ones have been -/
theorem C168_written_partial (ops : List TOp) (h : Keeps ⟨[], [], [], 0⟩ ops) :
    ∀ b ∈ (trun ⟨[], [], [], 0⟩ ops).live, getWritten (trun ⟨[], [], [], 0⟩ ops) b = true ↔ b.uid ∈ (trun ⟨[], [], [], 0⟩ ops).written := by
  have key : ∀ ops t, TInv t → (∀ u ∈ t.written, u < t.next) → Keeps t ops → TInv (trun t ops) := by
    intro ops
    induction ops with
    | nil => intro t h _ _; exact h
    | cons o os ih =>
      intro t h hw hk
      obtain ⟨h1, h2⟩ := tstep_inv h hw o hk.1
      exact ih _ h1 h2 hk.2
  have hinv := key ops ⟨[], [], [], 0⟩ ⟨by simp, by simp, by simp, by simp⟩ (by simp) h
  intro b hb
  unfold getWritten
  rw [List.contains_iff_mem, hinv.marks]
  constructor
  · rintro ⟨b', h1, h2, h3⟩
    have : b' = b := hinv.addr b' h1 b hb (congrArg Prod.fst h3)
    rw [← this]; exact h2
  · intro hu; exact ⟨b, hb, hu, rfl⟩

example : Keeps ⟨[], [], [], 0⟩ [.alloc 100 "a", .alloc 200 "b", .setWritten 0, .free 1, .alloc 200 "a"] ∧
    (trun ⟨[], [], [], 0⟩ [.alloc 100 "a", .alloc 200 "b", .setWritten 0, .free 1, .alloc 200 "a"]).live = [⟨0, 100, "a"⟩, ⟨2, 200, "a"⟩] := by
  refine ⟨⟨fun u h => (by cases h), fun u h => (by cases h), fun u h => (by cases h), fun u h => ?_, fun u h => (by cases h), trivial⟩, by decide +kernel⟩
  cases h
  decide +kernel

/-- a builder made where one was that has been written and dropped is taken for written -/
theorem C168_reused_fails : ∃ t, t = trun ⟨[], [], [], 0⟩ [.alloc 100 "a", .setWritten 0, .free 0, .alloc 100 "a"] ∧
    t.live = [⟨1, 100, "a"⟩] ∧ getWritten t ⟨1, 100, "a"⟩ = true ∧ 1 ∉ t.written := ⟨_, rfl, by decide +kernel, by decide +kernel, by decide +kernel⟩

/-! ## C169: the HERD file -/

/-- a write that succeeds leaves the references of the container in the HERD file, if one is given, and no other HERD file is touched; without a path there
is none -/
theorem C169_herd_partial (env : Env D C H) (s : St D H) (io : IOObj D) (c : C) (herd : Option H) (h : (write env s io c herd).2 = .done) :
    (∀ p, io.herdPath = some p → Dict.get? (write env s io c herd).1.zips p = some (env.addHerd herd c)) ∧
    (∀ p, io.herdPath ≠ some p → Dict.get? (write env s io c herd).1.zips p = Dict.get? s.zips p) ∧
    ∃ b, env.build c = .ok b ∧ Dict.get? (write env s io c herd).1.h5 io.path = some (env.put ((Dict.get? s.h5 io.path).getD none) b).1 := by
  unfold write at h ⊢
  split at h
  · cases h
  · rename_i hm
    rw [if_neg hm]
    split at h
    · cases h
    · rename_i b hb
      rw [writeBuilder_zips]
      refine ⟨?_, ?_, b, hb, ?_⟩
      · intro p hp
        unfold writeHerd
        rw [hp]
        exact Dict.get?_set_self
      · intro p hp
        unfold writeHerd
        cases hh : io.herdPath with
        | none => rfl
        | some q =>
          rw [hh] at hp
          exact Dict.get?_set_ne (fun e => hp (by rw [e]))
      · unfold writeBuilder at h ⊢
        split at h
        · rename_i ho
          rw [if_pos ho]
          simp only [(writeHerd_h5 env s io c herd).1]
          exact Dict.get?_set_self
        · cases h

example : (write Ex.env Ex.s ⟨"p", .a, true, some "z", none⟩ [3] (some [8])).2 = .done ∧
    (write Ex.env Ex.s ⟨"p", .a, true, some "z", none⟩ [3] (some [8])).1.zips = [("z", [8, 3])] := by decide +kernel

/-- a container that cannot be built: the HERD file is replaced, the file is not -/
theorem C169_failed_fails : (write Ex.env Ex.s ⟨"p", .a, true, some "z", none⟩ [0] none).2 = .failed .valueError ∧
    (write Ex.env Ex.s ⟨"p", .a, true, some "z", none⟩ [0] none).1.zips = [("z", [0])] ∧
    (write Ex.env Ex.s ⟨"p", .a, true, some "z", none⟩ [0] none).1.h5 = Ex.s.h5 := by decide +kernel

/-- a HERD given to `write` is ignored if there is no path -/
theorem C169_ignored_fails : (write Ex.env Ex.s ⟨"p", .a, true, none, none⟩ [3] (some [8])).2 = .done ∧
    (write Ex.env Ex.s ⟨"p", .a, true, none, none⟩ [3] (some [8])).1.zips = Ex.s.zips := by decide +kernel

/-! ## C170: exporting -/

/-- an export changes no file but its own: the source, if it is another file, is as it was, also if the export fails; and no HERD file -/
theorem C170_source (env : Env D C H) (s : St D H) (io src : IOObj D) (j : Nat) (hdf5 link : Bool) (k : Option C) :
    (∀ p, p ≠ io.path → Dict.get? («export» env s io j src hdf5 k link).1.h5 p = Dict.get? s.h5 p) ∧ («export» env s io j src hdf5 k link).1.zips = s.zips := by
  obtain ⟨e1, e2⟩ := exportRemember_h5 s j src k (!link)
  unfold «export»
  split
  · exact ⟨fun _ _ => rfl, rfl⟩
  · split
    · exact ⟨fun _ _ => rfl, rfl⟩
    · split
      · exact ⟨fun _ _ => by rw [e1], e2⟩
      · exact ⟨fun _ _ => by rw [e1], e2⟩
      · exact ⟨fun p hp => by rw [writeBuilder_other env _ io _ hp, e1], by rw [writeBuilder_zips, e2]⟩

example : («export» Ex.env (run Ex.env Ex.s [.create "p" .r none, .create "n" .w none]) ⟨"n", .w, true, none, none⟩ 0 ⟨"p", .r, true, none, none⟩ true none false).1.h5 =
    [("p", some [1, 2]), ("q", none), ("n", some [1, 2])] := by decide +kernel

/-- an export without a container that succeeds writes what is in the source, if this has not been read before -/
theorem C170_all_partial (env : Env D C H) (s : St D H) (io src : IOObj D) (j : Nat) (h : («export» env s io j src true none true).2 = .done)
    (d : D) (hs : Dict.get? s.h5 src.path = some (some d)) (hn : src.seen = none) :
    Dict.get? («export» env s io j src true none true).1.h5 io.path = some (env.put ((Dict.get? s.h5 io.path).getD none) d).1 := by
  obtain ⟨e1, e2⟩ := exportRemember_h5 s j src (none : Option C) (!true)
  unfold «export» at h ⊢
  split at h
  · cases h
  · rename_i hm
    rw [if_neg hm]
    have he : exportBuilder env s src none (!true) = readBuilder s src := rfl
    rw [he] at h ⊢
    simp only [Bool.not_true, Bool.false_and, Bool.false_eq_true, if_false] at h ⊢ e1
    cases ho : src.isOpen with
    | false => simp [readBuilder, ho] at h
    | true =>
      simp only [readBuilder, ho, if_true, contents, hn, Option.getD_none, hs, Option.getD_some] at h ⊢
      unfold writeBuilder at h ⊢
      split at h
      · rename_i ho'
        rw [if_pos ho', e1]
        exact Dict.get?_set_self
      · cases h

example : («export» Ex.env (run Ex.env Ex.s [.create "p" .r none, .create "n" .w none]) ⟨"n", .w, true, none, none⟩ 0 ⟨"p", .r, true, none, none⟩ true none true).2 = .done := by
  decide +kernel

/-- the export of a source that has been read before writes what was in it then -/
theorem C170_stale_fails : (run Ex.env Ex.s [.create "p" .a none, .read 0, .write 0 [3] none, .create "n" .w none, .export 1 0 true none true]).h5 =
    [("p", some [1, 2, 3]), ("q", none), ("n", some [1, 2])] := by decide +kernel

/-- a container is exported only if the manager of the source has a builder for it and this is a root; then what is written is built anew -/
theorem C170_container (env : Env D C H) (s : St D H) (io src : IOObj D) (j : Nat) (hdf5 link : Bool) (c : C) :
    (env.builderOf c ≠ some false → ∃ e, «export» env s io j src hdf5 (some c) link = (s, .failed e)) ∧
    (∀ b, env.builderOf c = some false → env.rebuild c = .ok b → io.mode = .w → io.isOpen = true → (hdf5 = true ∨ link = false) →
      Dict.get? («export» env s io j src hdf5 (some c) link).1.h5 io.path = some (env.put ((Dict.get? s.h5 io.path).getD none) b).1) := by
  refine ⟨?_, ?_⟩
  · intro hb
    unfold «export»
    split
    · exact ⟨_, rfl⟩
    · split
      · exact ⟨_, rfl⟩
      · unfold exportBuilder
        cases hbo : env.builderOf c with
        | none => exact ⟨.valueError, by simp [hbo, exportRemember]⟩
        | some p =>
          cases p with
          | false => exact (hb hbo).elim
          | true => exact ⟨.valueError, by simp [hbo, exportRemember]⟩
  · intro b hb hr hm ho hl
    unfold «export»
    rw [if_neg (by simp [hm])]
    have : (!hdf5 && link) = false := by rcases hl with h | h <;> simp [h]
    simp only [this, Bool.false_eq_true, if_false, exportBuilder, hb, hr, writeBuilder, ho, if_true]
    exact Dict.get?_set_self

example : (Ex.env.builderOf [1, 2] = some false) ∧ («export» Ex.env (run Ex.env Ex.s [.create "n" .w none]) ⟨"n", .w, true, none, none⟩ 0 ⟨"p", .r, true, none, none⟩ true (some [9]) true).2 =
    .failed .valueError := by decide +kernel

end Verif.FileIO
