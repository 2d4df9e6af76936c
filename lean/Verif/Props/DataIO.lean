import Verif.Model.DataIO

/-!
# C172–C175: `H5DataIO` and the datasets made from it
-/

namespace Verif.DataIO
open Verif

namespace Ex

/-- the usual filters, and one that can be loaded -/
def fs : Filters := ⟨["gzip", "lzf"], fun n => decide (n = 32015)⟩

/-- a wrapped array with some options -/
def a : Args := ⟨some (.mem [5, 2] "int64"), some [none, some 2], none, some (.flag true), some (.int 4), some 0, some true, none, false, false, none, none⟩

/-- a wrapped iterator -/
def it : Args := ⟨some (.iter (some [10]) [none] [1] "int64"), none, none, none, none, none, none, none, false, false, none, none⟩

/-- no data -/
def e : Args := ⟨none, none, none, none, none, none, none, none, false, false, some [5], some (.ty "int64")⟩

/-- data compressed with a filter that is loaded -/
def pl : Args := ⟨some (.mem [3] "object"), none, none, some (.id 32015), none, none, none, none, false, true, none, none⟩

end Ex

/-! ## C172: the constructor -/

/-- the compression and its options go together, and there is such a filter -/
def CompOk (fs : Filters) (plugins : Bool) : Option Comp → Option Opts → Prop
  | none, _ => True
  | some (.flag false), _ => True
  | some (.flag true), o => "gzip" ∈ fs.encode ∧ (o = none ∨ ∃ n : Int, o = some (.int n) ∧ 0 ≤ n ∧ n ≤ 9)
  | some (.name s), o => s ∈ fs.encode ∧ (s = "gzip" → o = none ∨ ∃ n : Int, o = some (.int n) ∧ 0 ≤ n ∧ n ≤ 9) ∧ (s = "lzf" → o = none) ∧
      (s = "szip" → o = none ∨ ∃ (m : String) (n : Int), o = some (.tup [.str m, .int n]) ∧ (m = "ec" ∨ m = "nn") ∧ 0 < n ∧ n ≤ 32 ∧ n % 2 = 0)
  | some (.id n), _ => plugins = true ∧ fs.plugin n = true

/-- there are data, or a type and a shape that is not empty -/
def DataOk (a : Args) : Prop := (∀ s, a.dtype ≠ some (.str s)) ∧ (a.data = none → ∃ d n s, a.dtype = some (.ty d) ∧ a.shape = some (n :: s))

theorem comp_settings (a : Args) (p : Option (String × List Nat)) : (baseSettings a p).compression = a.compression ∧ (baseSettings a p).opts = a.opts ∧
    (baseSettings a p).fillvalue = a.fillvalue ∧ (baseSettings a p).shuffle = a.shuffle ∧ (baseSettings a p).fletcher32 = a.fletcher32 := by
  unfold baseSettings
  simp only
  split <;> exact ⟨rfl, rfl, rfl, rfl, rfl⟩

theorem szip_ok {o : Opts} : checkSzip o = .ok () ↔
    ∃ (m : String) (n : Int), o = .tup [.str m, .int n] ∧ (m = "ec" ∨ m = "nn") ∧ 0 < n ∧ n ≤ 32 ∧ n % 2 = 0 := by
  unfold checkSzip
  split
  · constructor
    · intro h; cases h
    · rintro ⟨m, n, h, _⟩; cases h
  · rename_i m n
    constructor
    · intro h
      split at h
      · rename_i hc
        obtain ⟨hm, h1, h2, h3⟩ := hc
        rcases hm with e | e
        · exact ⟨"ec", n, by rw [e], .inl rfl, h1, h2, h3⟩
        · exact ⟨"nn", n, by rw [e], .inr rfl, h1, h2, h3⟩
      · cases h
    · rintro ⟨m', n', h, hm, h1, h2, h3⟩
      cases h
      rw [if_pos ⟨hm.imp (fun e => by rw [e]) (fun e => by rw [e]), h1, h2, h3⟩]
  · constructor
    · intro h; cases h
    · rintro ⟨m, n, h, _⟩; cases h
  · rename_i l h1 h2
    constructor
    · intro h; cases h
    · rintro ⟨m, n, h, _⟩
      cases h
      exact (h1 _ _ rfl).elim

theorem checked_iff (fs : Filters) (pl : Bool) (st : Settings) :
    (checkOpts (compSettings st) = .ok () ∧ available fs pl (compSettings st).compression = true) ↔ CompOk fs pl st.compression st.opts := by
  have hstr : ∀ {s : String}, fs.encode.contains s = true ↔ s ∈ fs.encode := fun {s} => List.contains_iff_mem
  cases hc : st.compression with
  | none => simp [compSettings, hc, checkOpts, available, CompOk]
  | some c =>
    cases c with
    | flag b =>
      cases b with
      | false => simp [compSettings, hc, checkOpts, available, CompOk]
      | true =>
        cases ho : st.opts with
        | none => simp [compSettings, hc, ho, checkOpts, available, CompOk]
        | some o =>
          cases o with
          | int n =>
            by_cases hn : 0 ≤ n ∧ n < 10
            · simp [compSettings, hc, ho, checkOpts, available, CompOk, hn]
              intro _; omega
            · simp [compSettings, hc, ho, checkOpts, available, CompOk, hn]
              intro _ _; omega
          | tup l => simp [compSettings, hc, ho, checkOpts, available, CompOk]
    | id n => simp [compSettings, hc, checkOpts, available, CompOk]
    | name s =>
      have hcs : compSettings st = st := by unfold compSettings; rw [hc]
      rw [hcs, hc]
      show (checkOpts st = .ok () ∧ fs.encode.contains s = true) ↔ _
      rw [hstr]
      unfold checkOpts
      rw [hc]
      by_cases h1 : s = "gzip"
      · subst h1
        cases ho : st.opts with
        | none => simp [CompOk]
        | some o =>
          cases o with
          | int n =>
            by_cases hn : 0 ≤ n ∧ n < 10
            · simp [CompOk, hn]
              intro _; omega
            · simp [CompOk, hn]
              intro _ _; omega
          | tup l => simp [CompOk]
      · by_cases h2 : s = "lzf"
        · subst h2
          cases ho : st.opts <;> simp [CompOk]
        · by_cases h3 : s = "szip"
          · subst h3
            cases ho : st.opts with
            | none => simp [CompOk]
            | some o =>
              show (checkSzip o = .ok () ∧ _) ↔ _
              rw [szip_ok]
              unfold CompOk
              constructor
              · rintro ⟨h, hm⟩
                obtain ⟨m, n, e, hh⟩ := h
                exact ⟨hm, fun x => absurd x h1, fun x => absurd x h2, fun _ => .inr ⟨m, n, by rw [e], hh⟩⟩
              · rintro ⟨hm, _, _, h⟩
                rcases h rfl with h | ⟨m, n, e, hh⟩
                · cases h
                · cases e; exact ⟨⟨m, n, rfl, hh⟩, hm⟩
          · have hall : ∀ o : Option Opts, checkOpts ⟨st.maxshape, st.chunks, some (.name s), o, st.fillvalue, st.shuffle, st.fletcher32, st.shape, st.dtype⟩ = .ok () := by
              intro o
              unfold checkOpts
              split <;> simp_all
            have := hall st.opts
            unfold checkOpts at this
            simp only at this
            rw [this]
            simp [CompOk, h1, h2, h3]

theorem new_iff (fs : Filters) (a : Args) (w : Wrapper) : new fs a = .ok w ↔
    DataOk a ∧ CompOk fs a.plugins a.compression a.opts ∧
    ∃ p dt sh, w = ⟨a.data, dt, sh, compSettings (baseSettings a p), a.link && (match a.data with
      | some (.dset _ _) => true
      | _ => false), none⟩ ∧
      ((a.data ≠ none ∧ p = none ∧ dt = none ∧ sh = none) ∨ (a.data = none ∧ ∃ d n s, a.dtype = some (.ty d) ∧ a.shape = some (n :: s) ∧ p = some (d, n :: s) ∧ dt = some d ∧ sh = some (n :: s))) := by
  have hcomp : ∀ p, (checkOpts (compSettings (baseSettings a p)) = .ok () ∧ available fs a.plugins (compSettings (baseSettings a p)).compression = true) ↔
      CompOk fs a.plugins a.compression a.opts := by
    intro p
    rw [checked_iff, (comp_settings a p).1, (comp_settings a p).2.1]
  have hfin : ∀ p w', finish fs a (compSettings (baseSettings a p)) w' = .ok w ↔ CompOk fs a.plugins a.compression a.opts ∧ w = w' := by
    intro p w'
    rw [← hcomp p]
    unfold finish
    cases checkOpts (compSettings (baseSettings a p)) with
    | error e => simp
    | ok u =>
      cases available fs a.plugins (compSettings (baseSettings a p)).compression <;> simp [eq_comm]
  unfold new dataInit DataOk
  cases hd : a.dtype with
  | some d =>
    cases d with
    | str s => simp
    | ty s =>
      cases hda : a.data with
      | some x =>
        simp only [hfin]
        simp
        intro _
        constructor
        · intro e; exact ⟨_, _, _, e, rfl, rfl, rfl⟩
        · rintro ⟨p, dt, sh, e, rfl, rfl, rfl⟩; exact e
      | none =>
        cases hs : a.shape with
        | none => simp
        | some sh =>
          cases sh with
          | nil => simp [propOr, Except.map]
          | cons n sh =>
            simp only [Option.isNone_some, bne_self_eq_false, Bool.false_eq_true, if_false, propOr, Except.map, hfin]
            simp
            intro _
            constructor
            · intro e; exact ⟨_, _, _, e, _, _, ⟨rfl, rfl⟩, rfl, rfl, rfl⟩
            · rintro ⟨p, dt, sh, e, _, _, ⟨rfl, rfl⟩, rfl, rfl, rfl⟩; exact e
  | none =>
    cases hda : a.data with
    | some x =>
      simp only [hfin]
      simp
      intro _
      constructor
      · intro e; exact ⟨_, _, _, e, rfl, rfl, rfl⟩
      · rintro ⟨p, dt, sh, e, rfl, rfl, rfl⟩; exact e
    | none =>
      cases hs : a.shape with
      | none => simp [propOr, Except.map]
      | some sh => simp

/-- a wrapper can be made exactly if there are data, or a type and a shape that is not empty, and the compression and its options go together -/
theorem C172_accepts_partial (fs : Filters) (a : Args) : (∃ w, new fs a = .ok w) ↔ DataOk a ∧ CompOk fs a.plugins a.compression a.opts := by
  constructor
  · rintro ⟨w, h⟩
    exact ⟨((new_iff fs a w).1 h).1, ((new_iff fs a w).1 h).2.1⟩
  · rintro ⟨h1, h2⟩
    cases hd : a.data with
    | some x => exact ⟨_, (new_iff fs a _).2 ⟨h1, h2, none, none, none, rfl, .inl ⟨by rw [hd]; simp, rfl, rfl, rfl⟩⟩⟩
    | none =>
      obtain ⟨d, n, s, e1, e2⟩ := h1.2 hd
      exact ⟨_, (new_iff fs a _).2 ⟨h1, h2, some (d, n :: s), some d, some (n :: s), rfl, .inr ⟨hd, d, n, s, e1, e2, rfl, rfl, rfl⟩⟩⟩

example : DataOk Ex.a ∧ CompOk Ex.fs Ex.a.plugins Ex.a.compression Ex.a.opts :=
  ⟨⟨fun s h => (by cases h), fun h => (by cases h)⟩, by decide, .inr ⟨4, rfl, by decide, by decide⟩⟩

/-- the settings are the ones given; an iterator gives its chunks and its greatest shape if there are none; compression given as a flag is gzip or nothing -/
theorem C172_settings (fs : Filters) (a : Args) (w : Wrapper) (h : new fs a = .ok w) :
    w.data = a.data ∧ w.dataset = none ∧
    w.settings.fillvalue = a.fillvalue ∧ w.settings.shuffle = a.shuffle ∧ w.settings.fletcher32 = a.fletcher32 ∧
    (∀ m, a.maxshape = some m → w.settings.maxshape = some m) ∧
    (a.maxshape = none → w.settings.maxshape = match a.data with
      | some (.iter _ mx _ _) => some mx
      | _ => none) ∧
    (∀ c, a.chunks = some c → w.settings.chunks = some c) ∧
    (a.chunks = none → w.settings.chunks = match a.data with
      | some (.iter (some ch) _ _ _) => some (.shape ch)
      | _ => none) ∧
    (w.settings.compression, w.settings.opts) = (match a.compression with
      | some (.flag true) => (some (.name "gzip"), a.opts)
      | some (.flag false) => (none, none)
      | c => (c, a.opts)) ∧
    (w.link = true ↔ a.link = true ∧ ∃ i o, a.data = some (.dset i o)) := by
  obtain ⟨_, _, p, dt, sh, e, hp⟩ := (new_iff fs a w).1 h
  subst e
  have hb := comp_settings a p
  have hcs : ∀ st : Settings, (compSettings st).fillvalue = st.fillvalue ∧ (compSettings st).shuffle = st.shuffle ∧ (compSettings st).fletcher32 = st.fletcher32 ∧
      (compSettings st).maxshape = st.maxshape ∧ (compSettings st).chunks = st.chunks := by
    intro st
    unfold compSettings
    split <;> exact ⟨rfl, rfl, rfl, rfl, rfl⟩
  refine ⟨rfl, rfl, (hcs _).1.trans hb.2.2.1, (hcs _).2.1.trans hb.2.2.2.1, (hcs _).2.2.1.trans hb.2.2.2.2, ?_, ?_, ?_, ?_, ?_, ?_⟩
  · intro m hm
    simp only [(hcs _).2.2.2.1, baseSettings, hm]
    split <;> rfl
  · intro hm
    simp only [(hcs _).2.2.2.1, baseSettings, hm]
    cases a.data with
    | none => rfl
    | some d => cases d <;> rfl
  · intro c hc
    simp only [(hcs _).2.2.2.2, baseSettings, hc]
    split <;> rfl
  · intro hc
    simp only [(hcs _).2.2.2.2, baseSettings, hc]
    cases a.data with
    | none => rfl
    | some d =>
      cases d with
      | iter ch mx s dt => cases ch <;> rfl
      | mem => rfl
      | dset => rfl
  · unfold compSettings
    rw [hb.1]
    cases hc : a.compression with
    | none => simp [hb.1, hb.2.1, hc]
    | some c =>
      cases c with
      | flag b => cases b <;> simp [hb.2.1]
      | name s => simp [hb.1, hb.2.1, hc]
      | id n => simp [hb.1, hb.2.1, hc]
  · simp only [Bool.and_eq_true]
    cases a.data with
    | none => simp
    | some d => cases d <;> simp

example : (new Ex.fs Ex.a).map (fun w => (w.settings.compression, w.settings.opts)) = .ok (some (.name "gzip"), some (.int 4)) ∧
    (new Ex.fs Ex.it).map (fun w => (w.settings.maxshape, w.settings.chunks)) = .ok (some [none], some (.shape [10])) := by decide +kernel

/-- without data there must be a shape: a wrapper to which the data are given later, as for `Data.set_dataio`, cannot be made -/
theorem C172_later_fails : new Ex.fs ⟨none, none, none, none, none, none, none, none, false, false, none, none⟩ = .error .runtimeError := by decide +kernel

/-- a scalar dataset cannot be set up empty -/
theorem C172_scalar_fails : new Ex.fs ⟨none, none, none, none, none, none, none, none, false, false, some [], some (.ty "int64")⟩ = .error .runtimeError := by decide +kernel

/-- a dtype given as a string, which the signature takes, is refused -/
theorem C172_dtype_fails : new Ex.fs ⟨none, none, none, none, none, none, none, none, false, false, some [5], some (.str "int64")⟩ = .error .typeError := by decide +kernel

/-- options of a compression that is not given are accepted -/
theorem C172_opts_fails : (new Ex.fs ⟨some (.mem [5] "int64"), none, none, none, some (.int 77), none, none, none, false, false, none, none⟩).map
    (fun w => (w.settings.compression, w.settings.opts)) = .ok (none, some (.int 77)) := by decide +kernel

/-! ## C173: a wrapper for converted data -/

/-- what writing leaves alone -/
def SameOpts (s t : Settings) : Prop :=
  t.compression = s.compression ∧ t.opts = s.opts ∧ t.fillvalue = s.fillvalue ∧ t.shuffle = s.shuffle ∧ t.fletcher32 = s.fletcher32 ∧
    (∀ m, s.maxshape = some m → t.maxshape = some m) ∧ ∀ c, s.chunks = some c → t.chunks = some c

theorem SameOpts.refl (s : Settings) : SameOpts s s := ⟨rfl, rfl, rfl, rfl, rfl, fun _ h => h, fun _ h => h⟩

theorem SameOpts.trans {a b c : Settings} (h : SameOpts a b) (h' : SameOpts b c) : SameOpts a c :=
  ⟨h'.1.trans h.1, h'.2.1.trans h.2.1, h'.2.2.1.trans h.2.2.1, h'.2.2.2.1.trans h.2.2.2.1, h'.2.2.2.2.1.trans h.2.2.2.2.1,
    fun m hm => h'.2.2.2.2.2.1 m (h.2.2.2.2.2.1 m hm), fun m hm => h'.2.2.2.2.2.2 m (h.2.2.2.2.2.2 m hm)⟩

theorem write_wrapper {w : Wrapper} {d : Option String} {l : Bool} {i : Nat} {o : Out} {s : Source} (h : writeDataset (.wrapper w) d l i = .ok (o, s)) :
    ∃ w', s = .wrapper w' ∧ w'.data = w.data ∧ w'.link = w.link ∧ SameOpts w.settings w'.settings := by
  unfold writeDataset at h
  simp only at h
  split at h
  · split at h
    · split at h
      · cases h
      · cases h; exact ⟨_, rfl, rfl, rfl, SameOpts.refl _⟩
    · cases h
  · cases h; exact ⟨_, rfl, rfl, rfl, SameOpts.refl _⟩
  · split at h
    · split at h
      · cases h; exact ⟨_, rfl, rfl, rfl, SameOpts.refl _⟩
      · cases h
    · cases h; exact ⟨_, rfl, rfl, rfl, ⟨rfl, rfl, rfl, rfl, rfl, fun _ h => h, fun _ h => h⟩⟩
  · cases h
    refine ⟨_, rfl, rfl, rfl, ⟨rfl, rfl, rfl, rfl, rfl, fun m hm => ?_, fun c hc => ?_⟩⟩
    · simp only [chunkedSettings, hm]
    · simp only [chunkedSettings, hc]

theorem writes_wrapper (l : List (Option String × Nat)) (w : Wrapper) :
    ∃ w', writes (.wrapper w) l = .wrapper w' ∧ w'.data = w.data ∧ w'.link = w.link ∧ SameOpts w.settings w'.settings := by
  induction l generalizing w with
  | nil => exact ⟨w, rfl, rfl, rfl, SameOpts.refl _⟩
  | cons x l ih =>
    unfold writes
    split
    · exact ih w
    · rename_i h
      obtain ⟨w1, e, h1, h2, h3⟩ := write_wrapper h
      subst e
      obtain ⟨w2, e2, g1, g2, g3⟩ := ih w1
      exact ⟨w2, e2, g1.trans h1, g2.trans h2, h3.trans g3⟩

/-- the wrapper that the mapper makes for data it has converted has the options of the one given, unless this needs a filter that must be loaded -/
theorem C173_remade_partial (fs : Filters) (a : Args) (w w' : Wrapper) (h : new fs a = .ok w) (l : List (Option String × Nat)) (hw : writes (.wrapper w) l = .wrapper w')
    (hp : ∀ n, a.compression ≠ some (.id n)) (sh : List Nat) (dt : String) :
    ∃ w2, new fs (paramsWith w' (.mem sh dt)) = .ok w2 ∧ w2.data = some (.mem sh dt) ∧ SameOpts w.settings w2.settings ∧ SameOpts w2.settings w'.settings := by
  obtain ⟨w1, e1, _, _, hs⟩ := writes_wrapper l w
  rw [hw] at e1
  cases e1
  have hset := C172_settings fs a w h
  have hok : CompOk fs a.plugins a.compression a.opts := ((new_iff fs a w).1 h).2.1
  have hcomp := hset.2.2.2.2.2.2.2.2.2.1
  have hnf : ∀ b, w'.settings.compression ≠ some (.flag b) := by
    intro b
    rw [hs.1]
    intro e
    cases hc : a.compression with
    | none => rw [hc] at hcomp; simp [e] at hcomp
    | some c =>
      cases c with
      | flag b' => cases b' <;> (rw [hc] at hcomp; simp [e] at hcomp)
      | name s => rw [hc] at hcomp; simp [e] at hcomp
      | id n => exact hp n hc
  have hok' : CompOk fs false w'.settings.compression w'.settings.opts := by
    rw [hs.1, hs.2.1]
    cases hc : a.compression with
    | none =>
      rw [hc] at hcomp
      simp only [Prod.mk.injEq] at hcomp
      rw [hcomp.1]
      trivial
    | some c =>
      rw [hc] at hcomp hok
      cases c with
      | flag b' =>
        cases b' with
        | false => simp only [Prod.mk.injEq] at hcomp; rw [hcomp.1]; trivial
        | true =>
          simp only [Prod.mk.injEq] at hcomp
          rw [hcomp.1, hcomp.2]
          exact ⟨hok.1, fun _ => hok.2, fun e => absurd e (by decide), fun e => absurd e (by decide)⟩
      | name s => simp only [Prod.mk.injEq] at hcomp; rw [hcomp.1, hcomp.2]; exact hok
      | id n => exact (hp n hc).elim
  have hdata : DataOk (paramsWith w' (.mem sh dt)) := by
    refine ⟨fun s e => ?_, fun e => (by cases e)⟩
    unfold paramsWith at e
    simp only at e
    split at e <;> cases e
  obtain ⟨w2, h2⟩ := (C172_accepts_partial fs (paramsWith w' (.mem sh dt))).2 ⟨hdata, hok'⟩
  have hset2 := C172_settings fs _ w2 h2
  have hc2 := hset2.2.2.2.2.2.2.2.2.2.1
  have hc2' : w2.settings.compression = w'.settings.compression ∧ w2.settings.opts = w'.settings.opts := by
    have : (paramsWith w' (.mem sh dt)).compression = w'.settings.compression := rfl
    rw [this] at hc2
    cases hc : w'.settings.compression with
    | none => rw [hc] at hc2; simp only [Prod.mk.injEq] at hc2; exact ⟨hc2.1, hc2.2⟩
    | some c =>
      rw [hc] at hc2
      cases c with
      | flag b => exact (hnf b hc).elim
      | name s => simp only [Prod.mk.injEq] at hc2; exact ⟨hc2.1, hc2.2⟩
      | id n => simp only [Prod.mk.injEq] at hc2; exact ⟨hc2.1, hc2.2⟩
  have hmx : w2.settings.maxshape = w'.settings.maxshape := by
    cases hm : w'.settings.maxshape with
    | some m => exact hset2.2.2.2.2.2.1 m hm
    | none => exact hset2.2.2.2.2.2.2.1 hm
  have hch : w2.settings.chunks = w'.settings.chunks := by
    cases hm : w'.settings.chunks with
    | some m => exact hset2.2.2.2.2.2.2.2.1 m hm
    | none => exact hset2.2.2.2.2.2.2.2.2.1 hm
  have hall : SameOpts w'.settings w2.settings := ⟨hc2'.1, hc2'.2, hset2.2.2.1, hset2.2.2.2.1, hset2.2.2.2.2.1, fun m hm => hmx.trans hm, fun m hm => hch.trans hm⟩
  have hall' : SameOpts w2.settings w'.settings :=
    ⟨hc2'.1.symm, hc2'.2.symm, hset2.2.2.1.symm, hset2.2.2.2.1.symm, hset2.2.2.2.2.1.symm, fun m hm => hmx.symm.trans hm, fun m hm => hch.symm.trans hm⟩
  exact ⟨w2, h2, hset2.1, hs.trans hall, hall'⟩

example : (new Ex.fs Ex.a).bind (fun w => new Ex.fs (paramsWith w (.mem [5, 2] "object"))) =
    .ok ⟨some (.mem [5, 2] "object"), none, none, ⟨some [none, some 2], none, some (.name "gzip"), some (.int 4), some 0, some true, none, none, none⟩, false, none⟩ := by
  decide +kernel

/-- the wrapper for converted data cannot be made if the filter must be loaded, though the one given could -/
theorem C173_plugin_fails : (new Ex.fs Ex.pl).isOk = true ∧
    (new Ex.fs Ex.pl).bind (fun w => new Ex.fs (paramsWith w (.mem [3] "object"))) = .error .valueError := by decide +kernel

/-! ## C174: what is written -/

/-- an array that is wrapped is written with its shape, with the type of the builder or its own, and with every option given, each time it is written -/
theorem C174_array (fs : Filters) (a : Args) (w w' : Wrapper) (h : new fs a = .ok w) (sh : List Nat) (dt : String) (hd : a.data = some (.mem sh dt))
    (l : List (Option String × Nat)) (hw : writes (.wrapper w) l = .wrapper w') (bd : Option String) (lk : Bool) (i : Nat) :
    writeDataset (.wrapper w') bd lk i = .ok (.made ⟨sh, some (bd.getD dt), a.maxshape, a.chunks, w.settings.compression, w.settings.opts, a.fillvalue, a.shuffle, a.fletcher32⟩,
      .wrapper w') := by
  have hset := C172_settings fs a w h
  have hsd : w.settings.shape = none ∧ w.settings.dtype = none := by
    obtain ⟨_, _, p, dt', sh', e, hp⟩ := (new_iff fs a w).1 h
    subst e
    rcases hp with ⟨_, e, _, _⟩ | ⟨e, _⟩
    · subst e
      unfold compSettings baseSettings
      rw [hd]
      simp only
      split <;> exact ⟨rfl, rfl⟩
    · rw [hd] at e; cases e
  have hmx : w.settings.maxshape = a.maxshape := by
    cases hm : a.maxshape with
    | some m => exact hset.2.2.2.2.2.1 m hm
    | none => rw [hset.2.2.2.2.2.2.1 hm, hd]
  have hch : w.settings.chunks = a.chunks := by
    cases hm : a.chunks with
    | some m => exact hset.2.2.2.2.2.2.2.1 m hm
    | none => rw [hset.2.2.2.2.2.2.2.2.1 hm, hd]
  have hstep : ∀ bd lk i, writeDataset (.wrapper w) bd lk i = .ok (.made ⟨sh, some (bd.getD dt), a.maxshape, a.chunks, w.settings.compression, w.settings.opts, a.fillvalue,
      a.shuffle, a.fletcher32⟩, .wrapper w) := by
    intro bd lk i
    have hwd : w.data = some (.mem sh dt) := hset.1.trans hd
    unfold writeDataset
    simp only [hwd, hsd.1, hsd.2, request, hmx, hch, hset.2.2.1, hset.2.2.2.1, hset.2.2.2.2.1]
  have hall : ∀ l : List (Option String × Nat), writes (.wrapper w) l = .wrapper w := by
    intro l
    induction l with
    | nil => rfl
    | cons x l ih => unfold writes; rw [hstep]; exact ih
  rw [hall l] at hw
  cases hw
  exact hstep bd lk i

example : (new Ex.fs Ex.a).map (fun w => (writeDataset (.wrapper w) none true 0).map (·.1)) =
    .ok (.ok (.made ⟨[5, 2], some "int64", some [none, some 2], none, some (.name "gzip"), some (.int 4), some 0, some true, none⟩)) := by decide +kernel

/-- a dataset that is wrapped is linked or copied, as the wrapper says, whatever else it says -/
theorem C174_dataset (fs : Filters) (a : Args) (w : Wrapper) (h : new fs a = .ok w) (j : Nat) (o : Bool) (hd : a.data = some (.dset j o)) (bd : Option String) (lk : Bool) (i : Nat) :
    (writeDataset (.wrapper w) bd lk i).map (·.1) = .ok (if a.link then .link j else .copy j) := by
  obtain ⟨_, _, p, dt', sh', e, hp⟩ := (new_iff fs a w).1 h
  subst e
  unfold writeDataset
  simp only [hd, Bool.and_true]
  rfl

example : (new Ex.fs ⟨some (.dset 7 true), none, none, none, none, none, none, none, true, false, none, none⟩).map (fun w => (writeDataset (.wrapper w) none false 0).map (·.1)) =
    .ok (.ok (.link 7)) := by decide +kernel

/-- an iterator that is wrapped: the first time it is written, the dataset has the shape it recommends, the type of the builder, the options given, and otherwise its chunks and
greatest shape; there are always chunks and there is always a greatest shape -/
theorem C174_iterator_partial (fs : Filters) (a : Args) (w : Wrapper) (h : new fs a = .ok w) (ch : Option (List Nat)) (mx : List (Option Nat)) (sh : List Nat) (dt : String)
    (hd : a.data = some (.iter ch mx sh dt)) (bd : Option String) (lk : Bool) (i : Nat) :
    (writeDataset (.wrapper w) bd lk i).map (·.1) = .ok (.made ⟨sh, bd, some (a.maxshape.getD mx), some (a.chunks.getD ((ch.map Chunks.shape).getD (.flag true))), w.settings.compression, w.settings.opts, a.fillvalue, a.shuffle, a.fletcher32⟩) := by
  have hset := C172_settings fs a w h
  have hsd : w.settings.shape = none ∧ w.settings.dtype = none := by
    obtain ⟨_, _, p, dt', sh', e, hp⟩ := (new_iff fs a w).1 h
    subst e
    rcases hp with ⟨_, e, _, _⟩ | ⟨e, _⟩
    · subst e
      unfold compSettings baseSettings
      rw [hd]
      simp only
      split <;> exact ⟨rfl, rfl⟩
    · rw [hd] at e; cases e
  have hmx : w.settings.maxshape = some (a.maxshape.getD mx) := by
    cases hm : a.maxshape with
    | some m => exact hset.2.2.2.2.2.1 m hm
    | none => rw [hset.2.2.2.2.2.2.1 hm, hd]; rfl
  have hwd : w.data = some (.iter ch mx sh dt) := hset.1.trans hd
  unfold writeDataset
  simp only [hwd, chunkedSettings, hsd.1, hsd.2, hmx, request, hset.2.2.1, hset.2.2.2.1, hset.2.2.2.2.1, Except.map, Option.getD_some]
  cases hm : a.chunks with
  | some m => rw [hset.2.2.2.2.2.2.2.1 m hm]; rfl
  | none =>
    rw [hset.2.2.2.2.2.2.2.2.1 hm, hd]
    cases ch <;> rfl

example : (new Ex.fs Ex.it).map (fun w => (writeDataset (.wrapper w) (some "int64") true 0).map (·.1)) =
    .ok (.ok (.made ⟨[1], some "int64", some [none], some (.shape [10]), none, none, none, none, none⟩)) := by decide +kernel

/-- without data: the first time, the dataset has the shape and type given and the options -/
theorem C174_empty_partial (fs : Filters) (a : Args) (w : Wrapper) (h : new fs a = .ok w) (hd : a.data = none) (bd : Option String) (lk : Bool) (i : Nat) :
    ∃ d sh, a.dtype = some (.ty d) ∧ a.shape = some sh ∧
      (writeDataset (.wrapper w) bd lk i).map (·.1) = .ok (.made ⟨sh, some d, a.maxshape, a.chunks, w.settings.compression, w.settings.opts, a.fillvalue, a.shuffle, a.fletcher32⟩) := by
  have hset := C172_settings fs a w h
  have hmx : w.settings.maxshape = a.maxshape := by
    cases hm : a.maxshape with
    | some m => exact hset.2.2.2.2.2.1 m hm
    | none => rw [hset.2.2.2.2.2.2.1 hm, hd]
  have hch : w.settings.chunks = a.chunks := by
    cases hm : a.chunks with
    | some m => exact hset.2.2.2.2.2.2.2.1 m hm
    | none => rw [hset.2.2.2.2.2.2.2.2.1 hm, hd]
  have hsd : ∃ d n s, a.dtype = some (.ty d) ∧ a.shape = some (n :: s) ∧ w.settings.shape = some (n :: s) ∧ w.settings.dtype = some (some d) := by
    obtain ⟨_, _, p, dt', sh', e, hp⟩ := (new_iff fs a w).1 h
    subst e
    rcases hp with ⟨e, _⟩ | ⟨_, d, n, s, e1, e2, e3, _⟩
    · exact (e hd).elim
    · refine ⟨d, n, s, e1, e2, ?_⟩
      subst e3
      unfold compSettings baseSettings
      rw [hd]
      simp only
      split <;> exact ⟨rfl, rfl⟩
  obtain ⟨d, n, s, e1, e2, e3, e4⟩ := hsd
  refine ⟨d, n :: s, e1, e2, ?_⟩
  have hwd : w.data = none := hset.1.trans hd
  unfold writeDataset
  simp only [hwd, e3, e4, hset.2.1, request, hmx, hch, hset.2.2.1, hset.2.2.2.1, hset.2.2.2.2.1, Except.map]

example : (new Ex.fs Ex.e).map (fun w => (writeDataset (.wrapper w) none true 0).map (·.1)) =
    .ok (.ok (.made ⟨[5], some "int64", none, none, none, none, none, none, none⟩)) := by decide +kernel

/-- a wrapper without data can be written once only -/
theorem C174_empty_twice_fails : (new Ex.fs Ex.e).map (fun w => writeDataset (writes (.wrapper w) [(none, 0)]) none true 1) = .ok (.error .valueError) := by decide +kernel

/-- an iterator in a builder that gives no type: the type of its values is not used, so that `h5py` takes its default, `float32` -/
theorem C174_dtype_fails : (writeDataset (.plain (some (.iter none [none] [1] "int64"))) none true 0).map (·.1) =
    .ok (.made ⟨[1], none, some [none], some (.flag true), none, none, none, none, none⟩) := by decide +kernel

/-- an iterator that has been written once is written with the type of that builder, also for another one -/
theorem C174_reused_fails : (new Ex.fs Ex.it).map (fun w => (writeDataset (writes (.wrapper w) [(some "int8", 0)]) (some "int64") true 1).map (·.1)) =
    .ok (.ok (.made ⟨[1], some "int8", some [none], some (.shape [10]), none, none, none, none, none⟩)) := by decide +kernel

/-! ## C175: copies -/

/-- a copy of a wrapper without settings is written like the wrapper, if there are data in memory -/
theorem C175_copy_partial (w : Wrapper) (sh : List Nat) (dt : String) (hd : w.data = some (.mem sh dt))
    (hs : w.settings = ⟨none, none, none, none, none, none, none, none, none⟩) (bd : Option String) (lk : Bool) (i : Nat) :
    (writeDataset (.plain (copyOf w)) bd lk i).map (·.1) = (writeDataset (.wrapper w) bd lk i).map (·.1) := by
  unfold writeDataset copyOf
  simp only [hd, hs]
  rfl

example : (new Ex.fs ⟨some (.mem [3] "int64"), none, none, none, none, none, none, none, false, false, none, none⟩).map (·.settings) =
    .ok ⟨none, none, none, none, none, none, none, none, none⟩ := by decide +kernel

/-- a copy is written without the options of the wrapper -/
theorem C175_settings_fails : (new Ex.fs Ex.a).map (fun w => (writeDataset (.plain (copyOf w)) none true 0).map (·.1)) =
    .ok (.ok (.made ⟨[5, 2], some "int64", none, none, none, none, none, none, none⟩)) := by decide +kernel

/-- a copy of a wrapper without data cannot be written -/
theorem C175_empty_fails : (new Ex.fs Ex.e).map (fun w => (writeDataset (.plain (copyOf w)) none true 0).map (·.1)) = .ok (.error .valueError) := by decide +kernel

end Verif.DataIO
