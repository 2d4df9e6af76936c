import Verif.Model.Terms
import Verif.Base.Tac

/-!
# Properties of term sets, wrapped values and type configuration
-/

namespace Verif.Terms
open Verif

/-- a permissible value with a meaning whose prefix is declared -/
def IsTerm (ts : TermSet) (s : String) : Prop := ∃ p i, Dict.get? ts.terms s = some (.curie p i) ∧ p ∈ ts.prefixes

/-- an element which is a term -/
def Good (ts : TermSet) (e : Elem) : Prop := ∃ s, e = .str s ∧ IsTerm ts s

/-- every permissible value has a meaning `prefix:id` with a declared prefix -/
def WellFormed (ts : TermSet) : Prop := ∀ s m, Dict.get? ts.terms s = some m → ∃ p i, m = .curie p i ∧ p ∈ ts.prefixes

theorem validate_true {ts : TermSet} {e : Elem} : validate ts e = .ok true ↔ Good ts e := by
  unfold Good
  cases e with
  | other => simp [validate]
  | str s =>
    simp only [validate, getItem, info, IsTerm]
    cases hg : Dict.get? ts.terms s with
    | none => simp [hg]
    | some m =>
      cases m with
      | absent => simp [hg]
      | plain => simp [hg]
      | curie p i => by_cases hp : p ∈ ts.prefixes <;> simp [hg, hp]

theorem badValues_zero {ts : TermSet} {l : List Elem} : badValues ts l = .ok 0 ↔ ∀ e ∈ l, Good ts e := by
  induction l with
  | nil => simp [badValues]
  | cons e es ih =>
    rw [List.forall_mem_cons, ← ih, ← validate_true]
    simp only [badValues]
    cases hv : validate ts e with
    | error x => simp
    | ok b =>
      cases hb : badValues ts es with
      | error x => simp
      | ok n => cases b <;> simp

/-- **C82 (partial).** In a term set in which every term has a meaning with a declared prefix, a string is valid iff it is one of the
permissible values of the schema. -/
theorem C82_validate_partial {ts : TermSet} (h : WellFormed ts) (s : String) :
    validate ts (.str s) = .ok (decide (s ∈ Dict.keys ts.terms)) := by
  simp only [validate, getItem, info]
  cases hg : Dict.get? ts.terms s with
  | none =>
    have := Dict.get?_eq_none_iff.1 hg
    simp [this]
  | some m =>
    have hm := Dict.mem_keys_of_mem (Dict.mem_of_get? hg)
    obtain ⟨p, i, rfl, hp⟩ := h s m hg
    simp [hp, hm]

/-- the example term set -/
def exTs : TermSet := ⟨[("Homo sapiens", .curie "NCBI" "9606"), ("Mus musculus", .curie "NCBI" "10090")], ["NCBI"]⟩

/-- non-vacuity -/
example : WellFormed exTs ∧ validate exTs (.str "Mus musculus") = .ok true ∧ validate exTs (.str "Mus") = .ok false := by
  refine ⟨?_, by decide +kernel, by decide +kernel⟩
  intro s m h
  have := Dict.mem_of_get? h
  simp only [exTs, List.mem_cons, Prod.mk.injEq, List.not_mem_nil, or_false] at this
  rcases this with ⟨-, rfl⟩ | ⟨-, rfl⟩
  · exact ⟨_, _, rfl, by simp [exTs]⟩
  · exact ⟨_, _, rfl, by simp [exTs]⟩

/-- **C82 fails** otherwise: a permissible value whose prefix is not declared is not valid, and one without a meaning raises. -/
theorem C82_fails : validate ⟨[("a", .curie "X" "1"), ("b", .absent)], []⟩ (.str "a") = .ok false ∧
    validate ⟨[("a", .curie "X" "1"), ("b", .absent)], []⟩ (.str "b") = .error .attributeError := by decide +kernel

theorem init_good {ts : TermSet} {v0 v : Value} (h : init ts v0 = .ok v) : v = v0 ∧ ∀ e ∈ v.elems, Good ts e := by
  have key : (match badValues ts v0.elems with
      | .error e => (.error e : Except Err Value)
      | .ok 0 => .ok v0
      | .ok (_ + 1) => .error .valueError) = .ok v → v = v0 ∧ ∀ e ∈ v.elems, Good ts e := by
    intro h
    split at h
    · simp at h
    · rename_i hb
      simp only [Except.ok.injEq] at h
      subst h
      exact ⟨rfl, badValues_zero.1 hb⟩
    · simp at h
  unfold init at h
  split at h
  · simp at h
  · simp at h
  · exact key h

theorem append_good {ts : TermSet} {v v' : Value} {a : Arg} (hv : ∀ e ∈ v.elems, Good ts e) (h : append ts v a = .ok v') :
    ∀ e ∈ v'.elems, Good ts e := by
  unfold append at h
  dsimp only at h
  split at h
  · simp at h
  · rename_i values hvals
    split at h
    · simp at h
    · simp at h
    · rename_i hb
      have hg := badValues_zero.1 hb
      cases a with
      | elem e =>
        simp only [Except.ok.injEq] at hvals
        subst hvals
        cases v <;> simp only [appendData, Except.ok.injEq, reduceCtorEq] at h <;> subst h <;>
          · intro x hx
            rcases List.mem_append.1 hx with hx | hx
            · exact hv x hx
            · exact hg x hx
      | coll l =>
        simp only [Except.ok.injEq] at hvals
        subst hvals
        obtain ⟨s, hs, -⟩ := hg .other (by simp)
        simp at hs
      | iter l =>
        simp only [Except.ok.injEq] at hvals
        subst hvals
        obtain ⟨s, hs, -⟩ := hg .other (by simp)
        simp at hs
      | array l =>
        dsimp only at hvals
        split at hvals <;> simp at hvals
      | comp rows =>
        dsimp only at hvals
        split at hvals
        · rename_i hf
          simp only [Except.ok.injEq] at hvals
          subst hvals
          cases v <;> simp only [Value.hasField, Bool.false_eq_true] at hf <;>
            simp only [appendData, Except.ok.injEq, reduceCtorEq] at h
          subst h
          intro x hx
          simp only [Value.elems, List.map_append, List.mem_append] at hx
          rcases hx with hx | hx
          · exact hv x hx
          · exact hg x hx
        · simp at hvals

theorem extend_good {ts : TermSet} {v v' : Value} {a : Arg} (hv : ∀ e ∈ v.elems, Good ts e) (h : extend ts v a = .ok v') :
    ∀ e ∈ v'.elems, Good ts e := by
  unfold extend at h
  dsimp only at h
  split at h
  · simp at h
  · rename_i values hvals
    split at h
    · simp at h
    · simp at h
    · rename_i hb
      have hg := badValues_zero.1 hb
      have two : ∀ l m : List Elem, (∀ e ∈ l, Good ts e) → (∀ e ∈ m, Good ts e) → ∀ e ∈ l ++ m, Good ts e := by
        intro l m hl hm e he
        rcases List.mem_append.1 he with he | he
        · exact hl e he
        · exact hm e he
      cases a with
      | elem e => simp at hvals
      | coll l =>
        simp only [Except.ok.injEq] at hvals
        subst hvals
        cases v <;> simp only [extendData, reduceCtorEq] at h
        · simp only [Except.ok.injEq] at h
          subst h; exact two _ _ hv hg
        · split at h
          · simp only [Except.ok.injEq] at h
            subst h
            intro e he
            simp only [Value.elems, List.flatten_cons, List.flatten_nil, List.append_nil] at he
            exact two _ _ hv hg e he
          · simp at h
        · split at h
          · simp only [Except.ok.injEq] at h
            subst h
            intro e he
            simp only [Value.elems, List.flatten_append, List.flatten_cons, List.flatten_nil, List.append_nil] at he
            exact two _ _ hv hg e he
          · simp at h
      | array l =>
        dsimp only at hvals
        split at hvals
        · simp at hvals
        · simp only [Except.ok.injEq] at hvals
          subst hvals
          cases v <;> simp only [extendData, reduceCtorEq] at h
          · simp only [Except.ok.injEq] at h
            subst h; exact two _ _ hv hg
          · split at h
            · simp only [Except.ok.injEq] at h
              subst h
              intro e he
              simp only [Value.elems, List.flatten_cons, List.flatten_nil, List.append_nil] at he
              exact two _ _ hv hg e he
            · simp at h
          · split at h
            · simp only [Except.ok.injEq] at h
              subst h
              intro e he
              simp only [Value.elems, List.flatten_append, List.flatten_cons, List.flatten_nil, List.append_nil] at he
              exact two _ _ hv hg e he
            · simp at h
      | iter l =>
        cases v <;> simp only [extendData, reduceCtorEq, Except.ok.injEq] at h
        subst h; exact hv
      | comp rows =>
        dsimp only at hvals
        split at hvals
        · rename_i hf
          simp only [Except.ok.injEq] at hvals
          subst hvals
          cases v <;> simp only [Value.hasField, Bool.false_eq_true] at hf <;> simp only [extendData] at h
          · split at h
            · simp only [Except.ok.injEq] at h
              subst h
              intro e he
              simp only [Value.elems, List.flatten_cons, List.flatten_nil, List.append_nil, List.map_append] at he
              exact two _ _ hv hg e he
            · simp at h
          · split at h
            · simp only [Except.ok.injEq] at h
              subst h
              intro e he
              simp only [Value.elems, List.flatten_append, List.flatten_cons, List.flatten_nil, List.append_nil, List.map_append] at he
              exact two _ _ hv hg e he
            · simp at h
        · simp only [Except.ok.injEq] at hvals
          subst hvals
          cases v <;> simp only [extendData, reduceCtorEq, Except.ok.injEq] at h
          · subst h
            exact two _ _ hv hg
          · rename_i hf; simp [Value.hasField] at hf
          · rename_i hf; simp [Value.hasField] at hf

/-- **C53 (invariant).** After construction and any history of `append` and `extend` calls, accepted or not, with arguments of any kind, every
element of the wrapped value is a term of the term set. -/
theorem C53_invariant {ts : TermSet} {v0 v : Value} (h : init ts v0 = .ok v) (ops : List Op) :
    ∀ e ∈ (run ts v ops).elems, Good ts e := by
  have h0 := (init_good h).2
  clear h
  unfold run
  induction ops generalizing v with
  | nil => exact h0
  | cons op ops ih =>
    apply ih
    unfold step
    split
    · rename_i v' hv'
      cases op with
      | append a => exact append_good h0 hv'
      | extend a => exact extend_good h0 hv'
    · exact h0

/-- the elements of an argument of `append` or `extend` -/
def Op.items : Op → List Elem
  | .append (.elem e) => [e]
  | .append _ => []
  | .extend (.coll l) => l
  | .extend (.array l) => l
  | .extend _ => []

/-- calls with an argument suitable for a list, other than one-shot iterators -/
def Op.Plain : Op → Prop
  | .append (.elem _) => True
  | .extend (.coll _) => True
  | .extend (.array _) => True
  | _ => False

/-- what is added: the elements, if they all are terms; else nothing -/
noncomputable def added (ts : TermSet) (op : Op) : List Elem :=
  open Classical in if ∀ e ∈ op.items, Good ts e then op.items else []

theorem step_list {ts : TermSet} {l : List Elem} {op : Op} (h : op.Plain) : step ts (.list l) op = .list (l ++ added ts op) := by
  have key : ∀ (vals : List Elem), op.items = vals → ∀ (r : Value), r = .list (l ++ vals) →
      (match (match badValues ts vals with
        | .error e => (.error e : Except Err Value)
        | .ok (_ + 1) => .error .valueError
        | .ok 0 => .ok r) with
      | .ok v' => v'
      | .error _ => .list l) = .list (l ++ added ts op) := by
    intro vals hv r hr
    by_cases hg : ∀ e ∈ vals, Good ts e
    · rw [badValues_zero.2 hg]
      simp only [hr]
      rw [added, hv, if_pos hg]
    · have hne : badValues ts vals ≠ .ok 0 := fun hc => hg (badValues_zero.1 hc)
      have e1 : added ts op = [] := by rw [added, hv, if_neg hg]
      rw [e1, List.append_nil]
      cases hb : badValues ts vals with
      | error x => rfl
      | ok n =>
        cases n with
        | zero => exact absurd hb hne
        | succ n => rfl
  cases op with
  | append a =>
    cases a <;> simp only [Op.Plain] at h
    rename_i e
    exact key [e] rfl _ rfl
  | extend a =>
    cases a <;> simp only [Op.Plain] at h
    · rename_i m; exact key m rfl _ rfl
    · rename_i m; exact key m rfl _ rfl

/-- **C53 (exact, partial).** A wrapped list, after any history of calls appending single elements or extending with lists, tuples or arrays,
is the initial list followed by the elements of exactly those calls all of whose elements are terms, in order.  (Not so for
one-shot iterators: `C53_iterator_fails`.) -/
theorem C53_exact_partial (ts : TermSet) (l : List Elem) (ops : List Op) (h : ∀ op ∈ ops, op.Plain) :
    run ts (.list l) ops = .list (l ++ ops.flatMap (added ts)) := by
  unfold run
  induction ops generalizing l with
  | nil => simp
  | cons op ops ih =>
    rw [List.foldl_cons, step_list (h op (by simp)), ih _ (fun o ho => h o (by simp [ho]))]
    simp

/-- non-vacuity: a rejected `append`, an accepted one, a rejected `extend` with one good and one bad element -/
example : run exTs (.list [.str "Homo sapiens"]) [.append (.elem (.str "x")), .append (.elem (.str "Mus musculus")),
      .extend (.coll [.str "Homo sapiens", .other]), .extend (.coll [.str "Homo sapiens", .str "y"])] =
    .list [.str "Homo sapiens", .str "Mus musculus"] ∧ init exTs (.list [.str "Homo sapiens"]) = .ok (.list [.str "Homo sapiens"]) := by
  decide +kernel

/-- **C53 fails** (iterators): extending with a one-shot iterator over terms is accepted and adds nothing. -/
theorem C53_iterator_fails : extend exTs (.list []) (.iter [.str "Homo sapiens"]) = .ok (.list []) := by decide +kernel

/-- **C53 fails** (arrays): extending a one-dimensional array gives a two-dimensional one, and only for equal lengths. -/
theorem C53_array_fails : extend exTs (.array [.str "Homo sapiens"]) (.coll [.str "Mus musculus"]) =
      .ok (.array2 [[.str "Homo sapiens"], [.str "Mus musculus"]]) ∧
    extend exTs (.array [.str "Homo sapiens"]) (.coll [.str "Mus musculus", .str "Mus musculus"]) = .error .valueError := by
  decide +kernel

/-- **C53 fails** (other methods): the methods of the wrapped list are reached through the wrapper without validation. -/
theorem C53_insert_fails : insertFirst (.list [.str "Homo sapiens"]) (.str "nonsense") =
    .ok (.list [.str "nonsense", .str "Homo sapiens"]) ∧ validate exTs (.str "nonsense") = .ok false := by decide +kernel

/-! ## Type configuration -/

variable {Cfg : Type}

/-- a file with the keys `namespaces` and, for each namespace, `data_types`; a mapping has each key once -/
def WfFile (f : File Cfg) : Prop :=
  ∃ d, f = some d ∧ (Dict.keys d).Nodup ∧ ∀ ns t, (ns, t) ∈ d → ∃ t', t = some t' ∧ (Dict.keys t').Nodup

/-- the configuration of a data type in a file -/
def mention (f : File Cfg) (dt ns : String) : Option Cfg :=
  match f with
  | none => none
  | some d => match Dict.get? d ns with
    | some (some t) => Dict.get? t dt
    | _ => none

/-- the paths whose files are in force: those loaded since the last `unload`, each counted the first time -/
def inForce (ops : List COp) : List String :=
  ops.foldl (fun l op => match op with
    | .load p => if p ∈ l then l else l ++ [p]
    | .unload => []) []

/-- the configuration according to the last of the files which mentions the data type -/
def lastMention (fs : String → File Cfg) (paths : List String) (dt ns : String) : Option Cfg :=
  paths.reverse.findSome? fun p => mention (fs p) dt ns

theorem mergeTypes_get (old new : Dict String Cfg) (hn : (Dict.keys new).Nodup) (k : String) :
    Dict.get? (mergeTypes old new) k = (Dict.get? new k).or (Dict.get? old k) := by
  unfold mergeTypes
  induction new generalizing old with
  | nil => rfl
  | cons p new ih =>
    obtain ⟨k', v⟩ := p
    simp only [Dict.keys, List.map_cons, List.nodup_cons] at hn
    rw [List.foldl_cons, ih _ hn.2, Dict.get?_set]
    by_cases hk : k = k'
    · subst hk
      have : Dict.get? new k = none := Dict.get?_eq_none_iff.2 hn.1
      simp [Dict.get?, this]
    · have hk' : ¬ k' = k := fun e => hk e.symm
      simp [Dict.get?, hk, hk']

/-- well-formed configuration: every namespace has its data types -/
def WfConf (d : Dict String (Option (Dict String Cfg))) : Prop := ∀ ns t, Dict.get? d ns = some t → ∃ t', t = some t'

theorem mention_some {d : Dict String (Option (Dict String Cfg))} {dt ns : String} :
    mention (some d) dt ns = (Dict.get? d ns).bind fun t => t.bind fun t => Dict.get? t dt := by
  simp only [mention]
  cases Dict.get? d ns with
  | none => rfl
  | some t => cases t <;> rfl

theorem mergeNs_ok (old new : Dict String (Option (Dict String Cfg))) (ho : WfConf old) (hn : (Dict.keys new).Nodup)
    (hw : ∀ ns t, (ns, t) ∈ new → ∃ t', t = some t' ∧ (Dict.keys t').Nodup) :
    ∃ m, mergeNs old new = (m, .ok ()) ∧ WfConf m ∧
      ∀ dt ns, mention (some m) dt ns = (mention (some new) dt ns).or (mention (some old) dt ns) := by
  induction new generalizing old with
  | nil => exact ⟨old, rfl, ho, by intro dt ns; rfl⟩
  | cons p new ih =>
    obtain ⟨ns0, t⟩ := p
    obtain ⟨n, rfl, hnn⟩ := hw ns0 t (by simp)
    simp only [Dict.keys, List.map_cons, List.nodup_cons] at hn
    have hnew : Dict.get? new ns0 = none := Dict.get?_eq_none_iff.2 hn.1
    have hw' : ∀ ns t, (ns, t) ∈ new → ∃ t', t = some t' ∧ (Dict.keys t').Nodup := fun ns t h => hw ns t (by simp [h])
    have hset : ∀ x : Dict String Cfg, WfConf (Dict.set old ns0 (some x)) := by
      intro x ns t ht
      rw [Dict.get?_set] at ht
      split at ht
      · exact ⟨x, by simpa using ht.symm⟩
      · exact ho ns t ht
    simp only [mergeNs]
    cases hg : Dict.get? old ns0 with
    | none =>
      obtain ⟨m, h1, h2, h3⟩ := ih (Dict.set old ns0 (some n)) (hset n) hn.2 hw'
      refine ⟨m, h1, h2, ?_⟩
      intro dt ns
      rw [h3, mention_some, mention_some, mention_some, mention_some, Dict.get?_set]
      by_cases hk : ns = ns0
      · subst hk; simp [Dict.get?, hnew, hg]
      · have hk' : ¬ ns0 = ns := fun e => hk e.symm
        simp [Dict.get?, hk, hk']
    | some o =>
      obtain ⟨o', rfl⟩ := ho ns0 o hg
      obtain ⟨m, h1, h2, h3⟩ := ih (Dict.set old ns0 (some (mergeTypes o' n))) (hset _) hn.2 hw'
      refine ⟨m, ?_, h2, ?_⟩
      · cases n <;> exact h1
      · intro dt ns
        rw [h3, mention_some, mention_some, mention_some, mention_some, Dict.get?_set]
        by_cases hk : ns = ns0
        · subst hk
          simp [Dict.get?, hnew, hg, mergeTypes_get o' n hnn]
        · have hk' : ¬ ns0 = ns := fun e => hk e.symm
          simp [Dict.get?, hk, hk']

/-- what holds after a history -/
structure CInv (fs : String → File Cfg) (paths : List String) (c : Conf Cfg) : Prop where
  path : c.path = paths
  empty : paths = [] → c.config = none
  conf : paths ≠ [] → ∃ d, c.config = some (some d) ∧ WfConf d ∧ ∀ dt ns, mention (some d) dt ns = lastMention fs paths dt ns

theorem lastMention_append (fs : String → File Cfg) (paths : List String) (p dt ns : String) :
    lastMention fs (paths ++ [p]) dt ns = (mention (fs p) dt ns).or (lastMention fs paths dt ns) := by
  unfold lastMention
  rw [List.reverse_append]
  simp only [List.reverse_cons, List.reverse_nil, List.nil_append, List.singleton_append, List.findSome?_cons]
  cases mention (fs p) dt ns <;> rfl

theorem cinv_run (fs : String → File Cfg) (hfs : ∀ p, WfFile (fs p)) (ops : List COp) : CInv fs (inForce ops) (crun fs ops) := by
  suffices h : ∀ (paths : List String) (c : Conf Cfg), CInv fs paths c →
      CInv fs (ops.foldl (fun l op => match op with | .load p => if p ∈ l then l else l ++ [p] | .unload => []) paths)
        (ops.foldl (cstep fs) c) from
    h [] ⟨none, []⟩ ⟨rfl, fun _ => rfl, fun h => absurd rfl h⟩
  induction ops with
  | nil => intro paths c h; exact h
  | cons op ops ih =>
    intro paths c h
    rw [List.foldl_cons, List.foldl_cons]
    apply ih
    cases op with
    | unload => exact ⟨rfl, fun _ => rfl, fun h => absurd rfl h⟩
    | load p =>
      simp only [cstep, load]
      obtain ⟨d, hd, hdn, hdw⟩ := hfs p
      by_cases hp0 : paths = []
      · subst hp0
        rw [h.empty rfl]
        simp only [List.not_mem_nil, if_false, List.nil_append, h.path, List.length_nil, if_true]
        refine ⟨rfl, by simp, fun _ => ⟨d, by rw [hd], ?_, ?_⟩⟩
        · intro ns t ht
          obtain ⟨t', rfl, -⟩ := hdw ns t (Dict.mem_of_get? ht)
          exact ⟨t', rfl⟩
        · intro dt ns
          have := lastMention_append fs [] p dt ns
          simp only [List.nil_append] at this
          rw [this, hd]
          simp [lastMention]
      · obtain ⟨d0, hc, hw0, hl0⟩ := h.conf hp0
        rw [hc, h.path]
        simp only
        by_cases hmem : p ∈ paths
        · rw [if_pos hmem, if_pos (by simpa using hmem)]
          exact ⟨h.path, h.empty, h.conf⟩
        · rw [if_neg hmem, if_neg (by simpa using hmem), hd]
          obtain ⟨m, h1, h2, h3⟩ := mergeNs_ok d0 d hw0 hdn hdw
          have goal : CInv fs (paths ++ [p]) (⟨some (some m), paths ++ [p]⟩ : Conf Cfg) := by
            refine ⟨rfl, by simp, fun _ => ⟨m, rfl, h2, ?_⟩⟩
            intro dt ns
            rw [h3, lastMention_append, hd, hl0]
          cases d <;> simp only [h1] <;> exact goal

/-- **C54 (last writer wins).** For all well-formed files and every history of loads and unloads, the configuration of a data type is the one
in the last file in force which mentions it; a ValueError if none does, TypeError if no file is loaded.  In particular loading
a file never removes the configuration of a data type it does not mention. -/
theorem C54_last_writer_partial (fs : String → File Cfg) (hfs : ∀ p, WfFile (fs p)) (ops : List COp) (dt ns : String) :
    getConfig (crun fs ops) dt ns =
      if inForce ops = [] then .error .typeError
      else match lastMention fs (inForce ops) dt ns with
        | none => .error .valueError
        | some x => .ok x := by
  have h := cinv_run fs hfs ops
  by_cases hne : inForce ops = []
  · rw [if_pos hne]
    simp only [getConfig, h.empty hne]
  · rw [if_neg hne]
    obtain ⟨d, hd, hw, hl⟩ := h.conf hne
    have hm := hl dt ns
    rw [mention_some] at hm
    rw [← hm]
    simp only [getConfig, hd]
    cases hg : Dict.get? d ns with
    | none => rfl
    | some t =>
      obtain ⟨t', rfl⟩ := hw ns t hg
      cases hx : Dict.get? t' dt <;> simp [hx]

/-- two files: the second overrides one type and adds another -/
def exFs : String → File Nat := fun p =>
  if p = "a" then some [("core", some [("T", 1), ("U", 2)])] else some [("core", some [("T", 3), ("V", 4)]), ("ext", some [("T", 5)])]

/-- non-vacuity -/
example : (getConfig (crun exFs [.load "a", .load "b", .load "a"]) "T" "core" = .ok 3 ∧
    getConfig (crun exFs [.load "a", .load "b"]) "U" "core" = .ok 2 ∧ getConfig (crun exFs [.load "a", .load "b"]) "T" "ext" = .ok 5 ∧
    getConfig (crun exFs [.load "a", .unload]) "T" "core" = .error .typeError) ∧ ∀ p, WfFile (exFs p) := by
  constructor
  · decide +kernel
  · intro p
    unfold exFs
    split
    · refine ⟨_, rfl, by decide +kernel, ?_⟩
      intro ns t h
      simp only [List.mem_cons, Prod.mk.injEq, List.not_mem_nil, or_false] at h
      obtain ⟨-, rfl⟩ := h
      exact ⟨_, rfl, by decide +kernel⟩
    · refine ⟨_, rfl, by decide +kernel, ?_⟩
      intro ns t h
      simp only [List.mem_cons, Prod.mk.injEq, List.not_mem_nil, or_false] at h
      rcases h with ⟨-, rfl⟩ | ⟨-, rfl⟩
      · exact ⟨_, rfl, by decide +kernel⟩
      · exact ⟨_, rfl, by decide +kernel⟩

/-- **C54 fails** for files without `data_types` in a namespace: the load raises after merging the namespaces before it, and the path is
not recorded. -/
theorem C54_malformed_fails :
    load ⟨some (some [("core", some [("T", 1)]), ("ext", some [])]), ["a"]⟩ "b" (some [("core", some [("T", 2)]), ("ext", none)]) =
      (⟨some (some [("core", some [("T", 2)]), ("ext", some [])]), ["a"]⟩, .error .keyError) := rfl

end Verif.Terms
