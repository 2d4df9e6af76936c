import Verif.Lemmas.SpecCache

/-!
# Namespaces cached in a file: properties
-/

namespace Verif.SpecCache
open Verif Namespace

/-! ## Concrete files for the examples -/

/-- a group of the file: one namespace with one type of its own, and includes -/
def wgrp (ns v : String) (incs : List String) : Reader where
  depth := 10
  dir := "f.h5:" ++ ns ++ "/" ++ v
  readNs := fun p => if p = nsPath then .ok [⟨ns, v, ⟨some (ns ++ ".types"), none, none⟩ :: incs.map (fun i => ⟨none, some i, none⟩), none⟩]
    else .error .keyError
  readSpec := fun s => if s = ns ++ ".types" then .ok [item ⟨ns ++ "Type", none, [], 0⟩] else .error .keyError

/-- `a` includes `b` and `c`, and both include `d` -/
def wfile : Cache Reader :=
  [("a", [("1", some (wgrp "a" "1" ["b", "c"]))]), ("b", [("1", some (wgrp "b" "1" ["d"])), ("0", some (wgrp "b" "0" ["d"]))]),
   ("c", [("None", some (wgrp "c" "None" ["d"]))]), ("d", [("2", some (wgrp "d" "2" []))])]

theorem wfile_get {ns : String} {g : Dict String (Option Reader)} {v : String} {x : Option Reader} (hg : Dict.get? wfile ns = some g)
    (hx : Dict.get? g v = some x) : (ns = "a" ∧ v = "1" ∧ x = some (wgrp "a" "1" ["b", "c"])) ∨
      (ns = "b" ∧ v = "1" ∧ x = some (wgrp "b" "1" ["d"])) ∨ (ns = "b" ∧ v = "0" ∧ x = some (wgrp "b" "0" ["d"])) ∨
      (ns = "c" ∧ v = "None" ∧ x = some (wgrp "c" "None" ["d"])) ∨ (ns = "d" ∧ v = "2" ∧ x = some (wgrp "d" "2" [])) := by
  simp only [wfile, Dict.get?] at hg
  split at hg
  · cases hg
    simp only [Dict.get?] at hx
    split at hx
    · cases hx; subst_vars; simp
    · cases hx
  · split at hg
    · cases hg
      simp only [Dict.get?] at hx
      split at hx
      · cases hx; subst_vars; simp
      · split at hx
        · cases hx; subst_vars; simp
        · cases hx
    · split at hg
      · cases hg
        simp only [Dict.get?] at hx
        split at hx
        · cases hx; subst_vars; simp
        · cases hx
      · split at hg
        · cases hg
          simp only [Dict.get?] at hx
          split at hx
          · cases hx; subst_vars; simp
          · cases hx
        · cases hg

theorem wfile_written : Written wfile where
  one := by
    intro ns g v x hg hx
    rcases wfile_get hg hx with ⟨rfl, rfl, rfl⟩ | ⟨rfl, rfl, rfl⟩ | ⟨rfl, rfl, rfl⟩ | ⟨rfl, rfl, rfl⟩ | ⟨rfl, rfl, rfl⟩ <;>
      exact ⟨_, _, rfl, rfl, rfl, rfl⟩
  dirs := by
    intro ns g v r ns' g' v' r' hg hr hg' hr' hd
    have key : ∀ {m : String} {h : Dict String (Option Reader)} {w : String} {q : Reader}, Dict.get? wfile m = some h →
        Dict.get? h w = some (some q) → (q.dir.toList.drop 5).head? = m.toList.head? ∧ m ∈ ["a", "b", "c", "d"] := by
      intro m h w q h1 h2
      rcases wfile_get h1 h2 with ⟨rfl, rfl, e⟩ | ⟨rfl, rfl, e⟩ | ⟨rfl, rfl, e⟩ | ⟨rfl, rfl, e⟩ | ⟨rfl, rfl, e⟩ <;>
        (cases e; exact ⟨by decide +kernel, by decide⟩)
    obtain ⟨a1, a2⟩ := key hg hr
    obtain ⟨b1, b2⟩ := key hg' hr'
    rw [hd, b1] at a1
    have : ∀ x ∈ ["a", "b", "c", "d"], ∀ y ∈ ["a", "b", "c", "d"], y.toList.head? = x.toList.head? → x = y := by decide +kernel
    exact this ns a2 ns' b2 a1

/-! ## C136 -/

/-- **C136**.  Whatever the namespaces of a file include, `_order_deps` puts each of them in the order exactly once: nothing is lost and
nothing is loaded twice, even if they include each other in a circle. -/
theorem C136_once {deps : Dict String (List String)} (hn : (Dict.keys deps).Nodup) : (orderDeps deps).Perm (Dict.keys deps) :=
  (order_spec hn).1

example : orderDeps [("a", ["b", "c"]), ("b", ["d"]), ("c", ["d"]), ("d", [])] = ["d", "b", "c", "a"] := by decide
example : orderDeps [("a", ["b"]), ("b", ["a", "x"])] = ["b", "a"] := by decide

/-- **C136**.  A namespace comes after each namespace of the file that it includes, unless that one in turn depends on it. -/
theorem C136_before {deps : Dict String (List String)} (hn : (Dict.keys deps).Nodup) {a b : List String} {ns d : String}
    {subs : List String} (ho : orderDeps deps = a ++ ns :: b) (hs : Dict.get? deps ns = some subs) (hd : d ∈ subs)
    (hk : d ∈ Dict.keys deps)
    (hc : ¬ Relation.ReflTransGen (fun x y => ∃ l, Dict.get? deps x = some l ∧ y ∈ l) d ns) : d ∈ a :=
  ((order_spec hn).2.before a ns b ho d ⟨subs, hs, hd⟩ hk).resolve_right hc

/-- **C136** (chains).  In particular, everything a namespace depends on, however indirectly, comes before it, if no namespace depends on
itself and everything included is in the file. -/
theorem C136_before_all {deps : Dict String (List String)} (hn : (Dict.keys deps).Nodup)
    (hall : ∀ x l y, Dict.get? deps x = some l → y ∈ l → y ∈ Dict.keys deps)
    (hc : ∀ x, ¬ Relation.TransGen (fun x y => ∃ l, Dict.get? deps x = some l ∧ y ∈ l) x x) {d : String} :
    ∀ {ns : String}, Relation.TransGen (fun x y => ∃ l, Dict.get? deps x = some l ∧ y ∈ l) ns d → ∀ {a b : List String},
      orderDeps deps = a ++ ns :: b → d ∈ a := by
  intro ns h
  induction h using Relation.TransGen.head_induction_on with
  | single h =>
    intro a b ho
    obtain ⟨l, h1, h2⟩ := h
    refine C136_before hn ho h1 h2 (hall _ l _ h1 h2) (fun h => hc d (Relation.TransGen.tail' h ⟨l, h1, h2⟩))
  | @head x y hxy _ ih =>
    intro a b ho
    obtain ⟨l, h1, h2⟩ := hxy
    have hy : y ∈ a := C136_before hn ho h1 h2 (hall _ l _ h1 h2) (fun h => hc y (Relation.TransGen.tail' h ⟨l, h1, h2⟩))
    obtain ⟨a1, a2, rfl⟩ := List.append_of_mem hy
    have := ih (a := a1) (b := a2 ++ x :: b) (by rw [ho]; simp)
    exact List.mem_append_left _ this

example : ∃ a b, orderDeps [("a", ["b", "c"]), ("b", ["d"]), ("c", ["d"]), ("d", [])] = a ++ "c" :: b ∧ "d" ∈ a :=
  ⟨["d", "b"], ["a"], by decide, by decide⟩

/-! ## C137 -/

/-- **C137** fails: the version of a namespace that is loaded is the last in alphabetical order: of 9.0.0 and 10.0.0 the older one. -/
theorem C137_latest_fails :
    ¬ ∀ (c : Cache Unit) (d : Dict String String), getNamespaces c = .ok d →
      (Dict.get? c "ext").map Dict.keys = some ["9.0.0", "10.0.0"] → Dict.get? d "ext" = some "10.0.0" := by
  intro h
  have := h [("ext", [("9.0.0", some ()), ("10.0.0", some ())])] [("ext", "9.0.0")] (by decide +kernel) (by decide)
  revert this
  decide +kernel

/-- **C137** fails: a namespace without any version hides the versions of all the others. -/
theorem C137_empty_group_fails :
    ¬ ∀ (c : Cache Unit), Dict.get? c "ok" = some [("1", some ())] → ∃ d, getNamespaces c = .ok d ∧ Dict.get? d "ok" = some "1" := by
  intro h
  obtain ⟨d, h1, _⟩ := h [("empty", []), ("ok", [("1", some ())])] (by decide)
  have : getNamespaces ([("empty", []), ("ok", [("1", some ())])] : Cache Unit) = .error .indexError := by decide +kernel
  rw [this] at h1
  cases h1

/-- **C137** (the version used).  It is one of the versions of the file; if there is any with a number, then it is the greatest of these
in alphabetical order, and not one of the names for a missing version. -/
theorem C137_version_partial {α : Type} {c : Cache α} {d : Dict String String} (h : getNamespaces c = .ok d) {ns : String}
    {g : Dict String (Option α)} (hg : Dict.get? c ns = some g) (hn : (Dict.keys g).Nodup) :
    ∃ v, Dict.get? d ns = some v ∧ v ∈ Dict.keys g ∧
      ∀ w ∈ Dict.keys g, w ≠ "None" → w ≠ "unversioned" → w ≤ v ∧ v ≠ "None" ∧ v ≠ "unversioned" := by
  obtain ⟨v, h1, h2⟩ := getNamespaces_spec h hg
  obtain ⟨h3, h4⟩ := latest_spec sorted_pairwise (sorted_perm.nodup_iff.2 hn) h2
  exact ⟨v, h1, mem_listed.1 h3, fun w hw => h4 w (mem_listed.2 hw)⟩

/-- **C137** (answered).  If every namespace of the file has a version, there is an answer for each of them. -/
theorem C137_answer_partial {α : Type} {c : Cache α} (h : ∀ ns g, Dict.get? c ns = some g → g ≠ []) :
    ∃ d, getNamespaces c = .ok d ∧ ∀ ns ∈ Dict.keys c, ns ∈ Dict.keys d := by
  obtain ⟨d, hd⟩ := versionsLoop_total h (l := listed c) (acc := []) (fun k hk => mem_listed.1 hk)
  refine ⟨d, hd, fun ns hns => ?_⟩
  obtain ⟨v, h1, _⟩ := versionsLoop_spec hd ns (mem_listed.2 hns)
  exact Dict.mem_keys_of_mem (Dict.mem_of_get? h1)

example : getNamespaces ([("core", [("2.0.1", some ()), ("2.1.0", some ()), ("None", some ())]), ("ext", [("unversioned", some ()),
    ("None", some ())])] : Cache Unit) = .ok [("core", "2.1.0"), ("ext", "None")] := by decide +kernel

/-! ## C138 -/

theorem cacheOne_keeps {α : Type} {c : Cache α} {e : Entry α} {ns v : String} {g : Dict String (Option α)} {x : Option α}
    (hg : Dict.get? c ns = some g) (hx : Dict.get? g v = some x) :
    ∃ g', Dict.get? (cacheOne c e).1 ns = some g' ∧ Dict.get? g' v = some x := by
  unfold cacheOne
  simp only
  split
  · exact ⟨g, hg, hx⟩
  · rename_i hne
    have key : ∀ y, ∃ g', Dict.get? (Dict.set c e.name (Dict.set ((Dict.get? c e.name).getD []) (versionName e.version) y)) ns = some g' ∧
        Dict.get? g' v = some x := by
      intro y
      by_cases hk : ns = e.name
      · subst hk
        refine ⟨_, Dict.get?_set_self, ?_⟩
        rw [hg] at hne ⊢
        simp only [Option.getD_some] at hne ⊢
        rw [Dict.get?_set_ne (fun e' => by rw [e', hne] at hx; cases hx), hx]
      · exact ⟨g, by rw [Dict.get?_set_ne hk, hg], hx⟩
    split
    · exact key _
    · exact key _

/-- **C138**.  Whatever is cached in a file stays as it is, whatever is written into it later and whether that works or not. -/
theorem C138_kept {α : Type} {ns v : String} {x : Option α} : ∀ {es : List (Entry α)} {c : Cache α} {g : Dict String (Option α)},
    Dict.get? c ns = some g → Dict.get? g v = some x →
    ∃ g', Dict.get? (cacheSpec c es).1 ns = some g' ∧ Dict.get? g' v = some x
  | [], c, g, hg, hx => ⟨g, hg, hx⟩
  | e :: es, c, g, hg, hx => by
    obtain ⟨g1, h1, h2⟩ := cacheOne_keeps (e := e) hg hx
    unfold cacheSpec
    split
    · rename_i h; rw [h] at h1; exact ⟨g1, h1, h2⟩
    · rename_i h; rw [h] at h1; exact C138_kept h1 h2

theorem cacheOne_other {α : Type} {c : Cache α} {e : Entry α} {ns v : String} (h : ns ≠ e.name ∨ v ≠ versionName e.version) :
    (Dict.get? (cacheOne c e).1 ns).bind (fun g => Dict.get? g v) = (Dict.get? c ns).bind (fun g => Dict.get? g v) := by
  unfold cacheOne
  simp only
  split
  · rfl
  · have key : ∀ y, (Dict.get? (Dict.set c e.name (Dict.set ((Dict.get? c e.name).getD []) (versionName e.version) y)) ns).bind
        (fun g => Dict.get? g v) = (Dict.get? c ns).bind (fun g => Dict.get? g v) := by
      intro y
      by_cases hk : ns = e.name
      · subst hk
        rw [Dict.get?_set_self]
        have hv := h.resolve_left (fun h => h rfl)
        simp only [Option.bind_some]
        rw [Dict.get?_set_ne hv]
        cases Dict.get? c e.name <;> simp
      · rw [Dict.get?_set_ne hk]
    split
    · exact key _
    · exact key _

theorem cacheOne_ok {α : Type} {c c' : Cache α} {e : Entry α} (h : cacheOne c e = (c', .ok ())) :
    (Dict.get? c' e.name).bind (fun g => Dict.get? g (versionName e.version)) =
      ((Dict.get? c e.name).bind (fun g => Dict.get? g (versionName e.version))).or
        (some (match e.content with | .ok x => some x | .error _ => none)) := by
  unfold cacheOne at h
  simp only at h
  split at h
  · rename_i x hx
    cases h
    cases hg : Dict.get? c e.name with
    | none => simp [hg] at hx
    | some g =>
      simp only [hg, Option.getD_some] at hx
      simp [hx]
  · rename_i hne
    have h0 : (Dict.get? c e.name).bind (fun g => Dict.get? g (versionName e.version)) = none := by
      cases hg : Dict.get? c e.name with
      | none => rfl
      | some g => simp only [hg, Option.getD_some] at hne; simp [hne]
    split at h
    · rename_i x hx
      cases h
      simp [h0, hx]
    · cases h

/-- **C138** (complete).  After a successful call, every namespace of the catalog is in the file under its version: as it was there
before, or else as exported now; nothing else has changed. -/
theorem C138_cached_partial {α : Type} : ∀ {es : List (Entry α)} {c c' : Cache α}, cacheSpec c es = (c', .ok ()) → (es.map Entry.name).Nodup →
    (∀ e ∈ es, (Dict.get? c' e.name).bind (fun g => Dict.get? g (e.version.getD "None")) =
      ((Dict.get? c e.name).bind (fun g => Dict.get? g (e.version.getD "None"))).or
        (some (match e.content with | .ok x => some x | .error _ => none))) ∧
    ∀ ns v, (∀ e ∈ es, ns ≠ e.name ∨ v ≠ e.version.getD "None") →
      (Dict.get? c' ns).bind (fun g => Dict.get? g v) = (Dict.get? c ns).bind (fun g => Dict.get? g v)
  | [], c, c', h, _ => by cases h; exact ⟨by simp, fun _ _ _ => rfl⟩
  | e :: es, c, c', h, hn => by
    have hn' := List.nodup_cons.1 (by simpa using hn : (e.name :: es.map Entry.name).Nodup)
    unfold cacheSpec at h
    cases h1 : cacheOne c e with
    | mk c1 r =>
      rw [h1] at h
      cases r with
      | error x => cases h
      | ok u =>
        simp only at h
        obtain ⟨p1, p2⟩ := C138_cached_partial h hn'.2
        have ho : ∀ {ns v : String}, (ns ≠ e.name ∨ v ≠ e.version.getD "None") →
            (Dict.get? c1 ns).bind (fun g => Dict.get? g v) = (Dict.get? c ns).bind (fun g => Dict.get? g v) := by
          intro ns v hv
          have := cacheOne_other (c := c) (e := e) (v := v) hv
          rw [h1] at this
          exact this
        refine ⟨fun e' he' => ?_, fun ns v hv => ?_⟩
        · rcases List.mem_cons.1 he' with rfl | he'
          · rw [p2 e'.name _ (fun x hx => .inl (fun he => hn'.1 (he ▸ List.mem_map_of_mem hx)))]
            exact cacheOne_ok h1
          · rw [p1 e' he', ho (.inl (fun he => hn'.1 (he ▸ List.mem_map_of_mem he')))]
        · rw [p2 ns v (fun x hx => hv x (List.mem_cons_of_mem _ hx)), ho (hv e (List.mem_cons_self ..))]

/-- **C138** (again).  Caching a second time changes nothing. -/
theorem C138_idempotent {α : Type} {es : List (Entry α)} {c c' : Cache α} (h : cacheSpec c es = (c', .ok ())) :
    ∀ {es' : List (Entry α)}, (∀ e' ∈ es', ∃ e ∈ es, e.name = e'.name ∧ e.version = e'.version) → cacheSpec c' es' = (c', .ok ()) := by
  have there : ∀ {es : List (Entry α)} {c c' : Cache α}, cacheSpec c es = (c', .ok ()) → ∀ e ∈ es, ∃ g x, Dict.get? c' e.name = some g ∧
      Dict.get? g (versionName e.version) = some x := by
    intro es
    induction es with
    | nil => intro c c' _ e he; cases he
    | cons a es ih =>
      intro c c' h e he
      unfold cacheSpec at h
      cases h1 : cacheOne c a with
      | mk c1 r =>
        rw [h1] at h
        cases r with
        | error x => cases h
        | ok u =>
          simp only at h
          rcases List.mem_cons.1 he with rfl | he
          · have := cacheOne_ok h1
            cases hg : Dict.get? c1 e.name with
            | none => rw [hg] at this; cases hh : (Dict.get? c e.name).bind (fun g => Dict.get? g (versionName e.version)) <;>
                simp [hh] at this
            | some g =>
              cases hx : Dict.get? g (versionName e.version) with
              | none => rw [hg] at this; simp only [Option.bind_some, hx] at this
                        cases hh : (Dict.get? c e.name).bind (fun g => Dict.get? g (versionName e.version)) <;> simp [hh] at this
              | some x =>
                obtain ⟨g', a1, a2⟩ := C138_kept (es := es) hg hx
                rw [h] at a1
                exact ⟨g', x, a1, a2⟩
          · exact ih h e he
  intro es' hes
  induction es' with
  | nil => rfl
  | cons a es' ih =>
    obtain ⟨e, he, e1, e2⟩ := hes a (List.mem_cons_self ..)
    obtain ⟨g, x, hg, hx⟩ := there h e he
    rw [e1] at hg
    rw [e2] at hx
    have : cacheOne c' a = (c', .ok ()) := by
      unfold cacheOne
      simp only [hg, Option.getD_some, hx]
    unfold cacheSpec
    rw [this]
    exact ih (fun e' h' => hes e' (List.mem_cons_of_mem _ h'))

/-- **C138** fails: a namespace that was changed without a change of its version is not cached: the file keeps the old specs, with which
the data just written may not agree. -/
theorem C138_changed_fails :
    ¬ ∀ (c c' : Cache Nat) (e : Entry Nat) (x : Nat), e.content = .ok x → cacheSpec c [e] = (c', .ok ()) →
      (Dict.get? c' e.name).bind (fun g => Dict.get? g (e.version.getD "None")) = some (some x) := by
  intro h
  have := h [("ext", [("0.1", some 1)])] [("ext", [("0.1", some 1)])] ⟨"ext", some "0.1", .ok 2⟩ 2 rfl (by rfl)
  revert this
  decide

/-- **C138** fails: if writing the specs of a namespace breaks off, an empty group stays, and later calls take it for the namespace: they
succeed and write nothing. -/
theorem C138_broken_off_fails :
    ¬ ∀ (c c1 c2 : Cache Nat) (e1 e2 : Entry Nat) (x : Nat) (err : Err), e1.name = e2.name → e1.version = e2.version → e2.content = .ok x →
      cacheSpec c [e1] = (c1, .error err) → cacheSpec c1 [e2] = (c2, .ok ()) →
      (Dict.get? c2 e2.name).bind (fun g => Dict.get? g (e2.version.getD "None")) = some (some x) := by
  intro h
  have := h [] [("ext", [("0.1", none)])] [("ext", [("0.1", none)])] ⟨"ext", some "0.1", .error .typeError⟩ ⟨"ext", some "0.1", .ok 2⟩ 2
    .typeError rfl rfl rfl rfl rfl
  revert this
  decide

example : cacheSpec ([("core", [("1", some 1)])] : Cache Nat) [⟨"core", some "2", .ok 7⟩, ⟨"ext", none, .ok 8⟩] =
    ([("core", [("1", some 1), ("2", some 7)]), ("ext", [("None", some 8)])], .ok ()) := by rfl

theorem name_inj {α : Type} : ∀ {es : List (Entry α)}, (es.map Entry.name).Nodup → ∀ {a b : Entry α}, a ∈ es → b ∈ es →
    a.name = b.name → a = b
  | [], _, _, _, h, _, _ => absurd h (by simp)
  | e :: es, hn, a, b, ha, hb, hab => by
    have hn' := List.nodup_cons.1 (by simpa using hn : (e.name :: es.map Entry.name).Nodup)
    rcases List.mem_cons.1 ha with rfl | ha' <;> rcases List.mem_cons.1 hb with rfl | hb'
    · rfl
    · exact (hn'.1 (hab ▸ List.mem_map_of_mem hb')).elim
    · exact (hn'.1 (hab.symm ▸ List.mem_map_of_mem ha')).elim
    · exact name_inj hn'.2 ha' hb' hab

/-- **C137** fails: a file that is written with version 10.0.0 of a namespace is read with version 9.0.0, if that was in the file before. -/
theorem C137_written_version_fails :
    ¬ ∀ (c c' : Cache Nat) (e : Entry Nat) (v : String) (d : Dict String String), e.version = some v → cacheSpec c [e] = (c', .ok ()) →
      getNamespaces c' = .ok d → Dict.get? d e.name = some v := by
  intro h
  have := h [("ext", [("9.0.0", some 1)])] [("ext", [("9.0.0", some 1), ("10.0.0", some 2)])] ⟨"ext", some "10.0.0", .ok 2⟩ "10.0.0"
    [("ext", "9.0.0")] rfl rfl (by decide +kernel)
  revert this
  decide +kernel

/-- **C137** (write, then read).  The version of a namespace with which the file was written last is the one that will be loaded, if no
version of it that was in the file before comes after it in alphabetical order. -/
theorem C137_written_partial {α : Type} {c c' : Cache α} {es : List (Entry α)} (h : cacheSpec c es = (c', .ok ()))
    (hn : (es.map Entry.name).Nodup) {e : Entry α} (he : e ∈ es) {v : String} (hv : e.version = some v) (hv1 : v ≠ "None")
    (hv2 : v ≠ "unversioned") {g' : Dict String (Option α)} (hg' : Dict.get? c' e.name = some g') (hgn : (Dict.keys g').Nodup)
    (hle : ∀ g, Dict.get? c e.name = some g → ∀ w ∈ Dict.keys g, w ≤ v ∨ w = "None" ∨ w = "unversioned") {d : Dict String String}
    (hd : getNamespaces c' = .ok d) : Dict.get? d e.name = some v := by
  obtain ⟨p1, p2⟩ := C138_cached_partial h hn
  obtain ⟨u, u1, u2, u3⟩ := C137_version_partial hd hg' hgn
  have hvm : v ∈ Dict.keys g' := by
    have := p1 e he
    rw [hg', hv] at this
    simp only [Option.bind_some, Option.getD_some] at this
    refine Dict.has_iff.1 ?_
    unfold Dict.has
    rw [this]
    cases (Dict.get? c e.name).bind (fun g => Dict.get? g v) <;> rfl
  obtain ⟨h1, h2, h3⟩ := u3 v hvm hv1 hv2
  by_cases huv : u = v
  · rw [u1, huv]
  · have hold := p2 e.name u (by
      intro x hx
      by_cases hxe : e.name = x.name
      · refine .inr ?_
        have : x = e := name_inj hn hx he hxe.symm
        rw [this, hv]
        exact huv
      · exact .inl hxe)
    rw [hg'] at hold
    simp only [Option.bind_some] at hold
    obtain ⟨x, hx⟩ : ∃ x, Dict.get? g' u = some x := by
      cases hx : Dict.get? g' u with
      | none => exact absurd u2 (Dict.get?_eq_none_iff.1 hx)
      | some x => exact ⟨x, rfl⟩
    rw [hx] at hold
    cases hg : Dict.get? c e.name with
    | none => rw [hg] at hold; cases hold
    | some g =>
      rw [hg] at hold
      simp only [Option.bind_some] at hold
      have hum : u ∈ Dict.keys g := Dict.mem_keys_of_mem (Dict.mem_of_get? hold.symm)
      rcases hle g hg u hum with h | h | h
      · rw [u1, String.le_antisymm h h1]
      · exact (h2 h).elim
      · exact (h3 h).elim

example : ∃ d, getNamespaces (cacheSpec ([("ext", [("1.9.0", some 1)])] : Cache Nat) [⟨"ext", some "2.0.0", .ok 2⟩]).1 = .ok d ∧
    Dict.get? d "ext" = some "2.0.0" := ⟨[("ext", "2.0.0")], by decide +kernel, by decide +kernel⟩

/-! ## C139 -/

/-- **C139**.  Loading the namespaces of a file never changes a namespace the catalog has, whether it works or not. -/
theorem C139_not_replaced {c : Cache Reader} {asked : Option (List String)} {st : State} {ns : String} {n : NSpace}
    (h : Dict.get? st.namespaces ns = some n) : Dict.get? (load c asked st).1.namespaces ns = some n := by
  unfold load
  split
  · exact h
  · split
    · exact h
    · exact loadLoop_frame'.ns ns n h

/-- **C139** (complete).  If the namespaces of a file as `write` makes it are loaded without an error, then each of them is in the catalog,
in the version `get_namespaces` reports, unless the catalog had it before; and there are no others. -/
theorem C139_loaded {c : Cache Reader} (hw : Written c) {st st' : State} {vs : Dict String String} (hvs : getNamespaces c = .ok vs)
    (hf : ∀ ns g v r, Dict.get? c ns = some g → Dict.get? g v = some (some r) → Dict.get? st.includedSpecs (r.dir ++ "/" ++ nsPath) = none)
    (h : load c none st = (st', .ok ())) :
    (∀ ns ∈ Dict.keys c, ∃ n v, Dict.get? st'.namespaces ns = some n ∧ Dict.get? vs ns = some v ∧
      (ns ∉ Dict.keys st.namespaces → n.version = v)) ∧
    ∀ ns, ns ∈ Dict.keys st'.namespaces → ns ∈ Dict.keys st.namespaces ∨ ns ∈ Dict.keys c := by
  unfold load at h
  simp only [hvs, Option.getD_none] at h
  split at h
  · cases h
  · rename_i rs deps hr
    obtain ⟨q1, q2, q3, q4⟩ := readersLoop_spec hw hr (by simp [Dict.keys])
    have hmem : ∀ k, k ∈ orderDeps deps ↔ k ∈ Dict.keys c := by
      intro k
      rw [(order_spec q1).1.mem_iff, q2]
      simp [Dict.keys, mem_listed]
    have hch : ∀ k, ∃ r d, k ∈ Dict.keys c → Chosen c vs k r d ∧ Dict.get? rs k = some r := by
      intro k
      by_cases hk : k ∈ Dict.keys c
      · obtain ⟨r, d, a, b, _⟩ := q4 k (mem_listed.2 hk)
        exact ⟨r, d, fun _ => ⟨a, b⟩⟩
      · exact ⟨wgrp "" "" [], ⟨"", "", [], none⟩, fun h => (hk h).elim⟩
    have hds : ∃ ds : String → NSDef, ∀ k ∈ Dict.keys c, ∃ r, Chosen c vs k r (ds k) ∧ Dict.get? rs k = some r := by
      refine ⟨fun k => Classical.choose (Classical.choose_spec (hch k)), fun k hk => ?_⟩
      exact ⟨_, Classical.choose_spec (Classical.choose_spec (hch k)) hk⟩
    obtain ⟨ds, hds⟩ := hds
    obtain ⟨p1, p2⟩ := loadLoop_loaded (ds := ds) h (order_spec q1).2.nodup (fun k hk => by
        obtain ⟨r, ⟨v, g, a1, a2, a3, a4, a5, a6⟩, b⟩ := hds k ((hmem k).1 hk)
        exact ⟨r, b, a4, a5, hf k g v r a2 a3⟩) (fun k hk k' hk' r r' hr1 hr2 hd => by
        obtain ⟨r1, ⟨v, g, a1, a2, a3, _⟩, b⟩ := hds k ((hmem k).1 hk)
        obtain ⟨r2, ⟨v', g', c1, c2, c3, _⟩, b'⟩ := hds k' ((hmem k').1 hk')
        rw [hr1] at b
        rw [hr2] at b'
        cases b
        cases b'
        exact hw.dirs k g v r k' g' v' r' a2 a3 c2 c3 hd)
    refine ⟨fun ns hns => ?_, fun ns hns => (p2 ns hns).imp id (hmem ns).1⟩
    obtain ⟨n, n1, n2⟩ := p1 ns ((hmem ns).2 hns)
    obtain ⟨r, ⟨v, g, a1, a2, a3, a4, a5, a6⟩, b⟩ := hds ns hns
    exact ⟨n, v, n1, a1, fun hx => (n2 hx).trans a6⟩

example : (load wfile none {}).2 = .ok () ∧ Dict.keys (load wfile none {}).1.namespaces = ["d", "b", "c", "a"] := by decide +kernel
example : Written wfile ∧ ∀ ns g v r, Dict.get? wfile ns = some g → Dict.get? g v = some (some r) →
    Dict.get? ({} : State).includedSpecs (r.dir ++ "/" ++ nsPath) = none := ⟨wfile_written, fun _ _ _ _ _ _ => rfl⟩

/-- **C139** (no failure for want of an included namespace).  If no namespace of the file depends on itself and each that is included is
in the file or in the catalog, then loading can fail only in a namespace whose included namespaces are all there. -/
theorem C139_included_first {c : Cache Reader} (hw : Written c) (hne : ∀ ns g, Dict.get? c ns = some g → g ≠ [])
    (hkn : ∀ ns g, Dict.get? c ns = some g → (Dict.keys g).Nodup) {st st' : State} {e : Err}
    (hf : ∀ ns g v r, Dict.get? c ns = some g → Dict.get? g v = some (some r) → Dict.get? st.includedSpecs (r.dir ++ "/" ++ nsPath) = none)
    (hac : ∀ ns, ¬ Relation.TransGen (Uses c) ns ns)
    (hcl : ∀ a b, Uses c a b → b ∈ Dict.keys c ∨ b ∈ Dict.keys st.namespaces) (h : load c none st = (st', .error e)) :
    ∃ ns g v r d st1, Dict.get? c ns = some g ∧ Dict.get? g v = some (some r) ∧ r.readNs nsPath = .ok [d] ∧
      Namespace.load r true st1 nsPath = (st', .error e) ∧ ∀ m ∈ includes d, m ∈ Dict.keys st1.namespaces := by
  obtain ⟨vs, hvs, hv2⟩ := C137_answer_partial hne
  unfold load at h
  simp only [hvs, Option.getD_none] at h
  obtain ⟨⟨rs, deps⟩, hr⟩ := readersLoop_total hw (vs := vs) (fun ns hns => by
    obtain ⟨g, hg⟩ : ∃ g, Dict.get? c ns = some g := by
      cases hg : Dict.get? c ns with
      | none => exact absurd hns (Dict.get?_eq_none_iff.1 hg)
      | some g => exact ⟨g, rfl⟩
    obtain ⟨v, a1, a2, _⟩ := C137_version_partial hvs hg (hkn ns g hg)
    obtain ⟨x, hx⟩ : ∃ x, Dict.get? g v = some x := by
      cases hx : Dict.get? g v with
      | none => exact absurd a2 (Dict.get?_eq_none_iff.1 hx)
      | some x => exact ⟨x, rfl⟩
    exact ⟨v, g, x, a1, hg, hx⟩) (l := listed c) (rs := []) (deps := []) (fun k hk => mem_listed.1 hk)
  rw [hr] at h
  simp only at h
  obtain ⟨q1, q2, q3, q4⟩ := readersLoop_spec hw hr (by simp [Dict.keys])
  have hmem : ∀ k, k ∈ Dict.keys deps ↔ k ∈ Dict.keys c := by intro k; rw [q2]; simp [Dict.keys, mem_listed]
  have hmo : ∀ k, k ∈ orderDeps deps ↔ k ∈ Dict.keys c := by intro k; rw [(order_spec q1).1.mem_iff, hmem]
  obtain ⟨pre, ns, post, st1, r, e1, e2, e3, e4⟩ := loadLoop_failure h (fun k hk => by
    obtain ⟨r, d, _, b, _⟩ := q4 k (mem_listed.2 ((hmo k).1 hk))
    exact ⟨r, b⟩)
  have hnsc : ns ∈ Dict.keys c := (hmo ns).1 (by rw [e1]; simp)
  obtain ⟨r', d, ⟨v, g, a1, a2, a3, a4, a5, a6⟩, b1, b2⟩ := q4 ns (mem_listed.2 hnsc)
  rw [e3] at b1
  cases b1
  refine ⟨ns, g, v, r, d, st1, a2, a3, a4, e4, fun m hm => ?_⟩
  have hsub : ∀ x y, Inc deps x y → Uses c x y := by
    intro x y ⟨l, h1, h2⟩
    have hx : x ∈ Dict.keys c := (hmem x).1 (Dict.mem_keys_of_mem (Dict.mem_of_get? h1))
    obtain ⟨r2, d2, ⟨v2, g2, _, c2, c3, c4, _⟩, _, c5⟩ := q4 x (mem_listed.2 hx)
    rw [h1] at c5
    cases c5
    exact ⟨g2, v2, r2, d2, c2, c3, c4, h2⟩
  have hu : Uses c ns m := ⟨g, v, r, d, a2, a3, a4, hm⟩
  have frame := @loadLoop_frame' rs pre st
  rw [e2] at frame
  rcases hcl ns m hu with hmc | hms
  · have hmp : m ∈ pre := C136_before q1 e1 b2 hm ((hmem m).2 hmc) (fun hp => by
      refine hac m ?_
      have : Relation.ReflTransGen (Uses c) m ns := Relation.ReflTransGen.mono hsub _ _ hp
      exact Relation.TransGen.tail' this hu)
    have hprenodup : pre.Nodup := by
      have := (order_spec q1).2.nodup
      simp only [e1] at this
      exact (List.nodup_append.1 this).1
    have hpre : ∀ k ∈ pre, k ∈ Dict.keys c := fun k hk => (hmo k).1 (by rw [e1]; exact List.mem_append_left _ hk)
    have hds : ∃ ds : String → NSDef, ∀ k ∈ pre, ∃ r, Chosen c vs k r (ds k) ∧ Dict.get? rs k = some r := by
      have hch : ∀ k, ∃ d, k ∈ pre → ∃ r, Chosen c vs k r d ∧ Dict.get? rs k = some r := by
        intro k
        by_cases hk : k ∈ pre
        · obtain ⟨r, d, a, b, _⟩ := q4 k (mem_listed.2 (hpre k hk))
          exact ⟨d, fun _ => ⟨r, a, b⟩⟩
        · exact ⟨⟨"", "", [], none⟩, fun h => (hk h).elim⟩
      exact ⟨fun k => Classical.choose (hch k), fun k hk => Classical.choose_spec (hch k) hk⟩
    obtain ⟨ds, hds⟩ := hds
    obtain ⟨p1, _⟩ := loadLoop_loaded (ds := ds) e2 hprenodup (fun k hk => by
        obtain ⟨r, ⟨v, g, a1, a2, a3, a4, a5, a6⟩, b⟩ := hds k hk
        exact ⟨r, b, a4, a5, hf k g v r a2 a3⟩) (fun k hk k' hk' r r' hr1 hr2 hd => by
        obtain ⟨r1, ⟨v, g, a1, a2, a3, _⟩, b⟩ := hds k hk
        obtain ⟨r2, ⟨v', g', c1, c2, c3, _⟩, b'⟩ := hds k' hk'
        rw [hr1] at b
        rw [hr2] at b'
        cases b
        cases b'
        exact hw.dirs k g v r k' g' v' r' a2 a3 c2 c3 hd)
    obtain ⟨n, hn, _⟩ := p1 m hmp
    exact Dict.mem_keys_of_mem (Dict.mem_of_get? hn)
  · obtain ⟨n, hn⟩ := Option.isSome_iff_exists.1 (Dict.has_iff.2 hms : (Dict.get? st.namespaces m).isSome = true)
    exact Dict.mem_keys_of_mem (Dict.mem_of_get? (frame.ns _ _ hn))

/-- **C139** fails: namespaces that include each other can be cached but not loaded. -/
theorem C139_circle_fails :
    ¬ ∀ (c : Cache Reader) (st' : State) (r : Except Err Unit), Written c → (∀ a b, Uses c a b → b ∈ Dict.keys c) →
      load c none {} = (st', r) → isOk r = true := by
  intro h
  let c : Cache Reader := [("a", [("1", some (wgrp "a" "1" ["b"]))]), ("b", [("1", some (wgrp "b" "1" ["a"]))])]
  have hget : ∀ {ns : String} {g : Dict String (Option Reader)} {v : String} {x : Option Reader}, Dict.get? c ns = some g →
      Dict.get? g v = some x → (ns = "a" ∧ v = "1" ∧ x = some (wgrp "a" "1" ["b"])) ∨ (ns = "b" ∧ v = "1" ∧ x = some (wgrp "b" "1" ["a"])) := by
    intro ns g v x hg hx
    simp only [c, Dict.get?] at hg
    split at hg
    · cases hg
      simp only [Dict.get?] at hx
      split at hx
      · cases hx; subst_vars; simp
      · cases hx
    · split at hg
      · cases hg
        simp only [Dict.get?] at hx
        split at hx
        · cases hx; subst_vars; simp
        · cases hx
      · cases hg
  have hw : Written c := by
    refine ⟨?_, ?_⟩
    · intro ns g v x hg hx
      rcases hget hg hx with ⟨rfl, rfl, rfl⟩ | ⟨rfl, rfl, rfl⟩ <;> exact ⟨_, _, rfl, rfl, rfl, rfl⟩
    · intro ns g v r ns' g' v' r' hg hr hg' hr' hd
      rcases hget hg hr with ⟨rfl, rfl, e⟩ | ⟨rfl, rfl, e⟩ <;> rcases hget hg' hr' with ⟨rfl, rfl, e'⟩ | ⟨rfl, rfl, e'⟩ <;>
        cases e <;> cases e' <;> first | rfl | (exfalso; revert hd; decide +kernel)
  have := h c (load c none {}).1 (load c none {}).2 hw (by
    rintro a b ⟨g, v, r, d, hg, hr, hd, hb⟩
    rcases hget hg hr with ⟨rfl, rfl, e⟩ | ⟨rfl, rfl, e⟩ <;> cases e <;> cases hd
    · have : b = "b" := by simpa [includes] using hb
      subst this; decide
    · have : b = "a" := by simpa [includes] using hb
      subst this; decide) rfl
  revert this
  decide +kernel

example : ∀ ns, ¬ Relation.TransGen (Uses wfile) ns ns := by
  let rank : String → Nat := fun s => if s = "a" then 2 else if s = "d" then 0 else 1
  have step : ∀ a b, Uses wfile a b → rank b < rank a := by
    rintro a b ⟨g, v, r, d, hg, hr, hd, hb⟩
    rcases wfile_get hg hr with ⟨rfl, rfl, e⟩ | ⟨rfl, rfl, e⟩ | ⟨rfl, rfl, e⟩ | ⟨rfl, rfl, e⟩ | ⟨rfl, rfl, e⟩ <;> cases e <;> cases hd <;>
      simp [includes] at hb
    · rcases hb with rfl | rfl <;> decide
    all_goals subst hb; decide
  intro ns h
  have : rank ns < rank ns := by
    have aux : ∀ {a b : String}, Relation.TransGen (Uses wfile) a b → rank b < rank a := by
      intro a b h
      induction h with
      | single h => exact step _ _ h
      | tail _ h ih => exact Nat.lt_trans (step _ _ h) ih
    exact aux h
  exact Nat.lt_irrefl _ this

end Verif.SpecCache
