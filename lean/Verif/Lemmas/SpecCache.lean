import Verif.Model.SpecCache
import Verif.Props.Namespace
import Mathlib.Data.List.Perm.Basic
import Mathlib.Logic.Relation

/-!
# Lemmas on the order in which cached namespaces are loaded
-/

namespace Verif.SpecCache
open Verif Namespace

/-- `k` includes `d` -/
def Inc (deps : Dict String (List String)) (k d : String) : Prop := ∃ subs, Dict.get? deps k = some subs ∧ d ∈ subs

/-- what has to be said about the order while it grows -/
structure Good (G : Dict String (List String)) (s : List String × Dict String (List String)) : Prop where
  nodup : s.1.Nodup
  rnodup : (Dict.keys s.2).Nodup
  disj : ∀ k ∈ s.1, k ∉ Dict.keys s.2
  sub : ∀ k v, Dict.get? s.2 k = some v → Dict.get? G k = some v
  insub : ∀ k ∈ s.1, k ∈ Dict.keys G
  before : ∀ a x b, s.1 = a ++ x :: b → ∀ d, Inc G x d → d ∈ Dict.keys G → d ∈ a ∨ Relation.ReflTransGen (Inc G) d x

/-- taken out and not yet in the order -/
def Gray (G : Dict String (List String)) (s : List String × Dict String (List String)) (g : String) : Prop :=
  g ∈ Dict.keys G ∧ g ∉ s.1 ∧ g ∉ Dict.keys s.2

/-- what a step gives -/
structure Step (G : Dict String (List String)) (s s' : List String × Dict String (List String)) : Prop where
  good : Good G s'
  gray : ∀ g, Gray G s' g ↔ Gray G s g
  keep : ∀ x ∈ s.1, x ∈ s'.1
  rem : ∀ x ∈ Dict.keys s'.2, x ∈ Dict.keys s.2
  all : ∀ x ∈ Dict.keys s.2, x ∈ s'.1 ∨ x ∈ Dict.keys s'.2
  len : s'.2.length ≤ s.2.length

theorem Step.refl {G : Dict String (List String)} {s : List String × Dict String (List String)} (h : Good G s) : Step G s s :=
  ⟨h, fun _ => Iff.rfl, fun _ h => h, fun _ h => h, fun _ h => .inr h, Nat.le_refl _⟩

theorem Step.trans {G : Dict String (List String)} {s t u : List String × Dict String (List String)} (h : Step G s t) (k : Step G t u) :
    Step G s u :=
  ⟨k.good, fun g => (k.gray g).trans (h.gray g), fun x hx => k.keep x (h.keep x hx), fun x hx => h.rem x (k.rem x hx),
    fun x hx => (h.all x hx).elim (fun hx => .inl (k.keep x hx)) (fun hx => k.all x hx), Nat.le_trans k.len h.len⟩

theorem get_del {α : Type} {d : Dict String α} {k x : String} {v : α} (h : Dict.get? (Dict.del d k) x = some v) :
    Dict.get? d x = some v := by
  by_cases e : x = k
  · subst e; simp at h
  · rwa [Dict.get?_del_ne e] at h

theorem del_len {α : Type} {d : Dict String α} {k : String} {v : α} (h : Dict.get? d k = some v) :
    (Dict.del d k).length < d.length := by
  have hm := Dict.mem_of_get? h
  unfold Dict.del
  refine List.length_filter_lt_length_iff_exists.2 ⟨_, hm, ?_⟩
  simp

theorem visit_step {G : Dict String (List String)} : ∀ (n : Nat) (k : String) (s : List String × Dict String (List String)),
    s.2.length ≤ n → Good G s → (∀ g, Gray G s g → Relation.ReflTransGen (Inc G) g k) →
    Step G s (visit n k s) ∧ k ∉ Dict.keys (visit n k s).2
  | 0, k, s, hn, hg, _ => by
    have h0 : s.2 = [] := List.length_eq_zero_iff.1 (Nat.le_zero.1 hn)
    refine ⟨Step.refl hg, ?_⟩
    simp [visit, h0, Dict.keys]
  | n + 1, k, s, hn, hg, hr => by
    unfold visit
    cases hk : Dict.get? s.2 k with
    | none => exact ⟨Step.refl hg, Dict.get?_eq_none_iff.1 hk⟩
    | some subs =>
      simp only []
      have hkG := hg.sub k subs hk
      have hkm : k ∈ Dict.keys s.2 := Dict.mem_keys_of_mem (Dict.mem_of_get? hk)
      have hkGm : k ∈ Dict.keys G := Dict.mem_keys_of_mem (Dict.mem_of_get? hkG)
      -- the state the loop starts from
      have g0 : Good G (s.1, Dict.del s.2 k) :=
        ⟨hg.nodup, Dict.del_nodup hg.rnodup, fun x hx hx' => hg.disj x hx (Dict.mem_keys_del.1 hx').1,
          fun x v hx => hg.sub x v (get_del hx), hg.insub, hg.before⟩
      have gr0 : ∀ g, Gray G (s.1, Dict.del s.2 k) g → Relation.ReflTransGen (Inc G) g k := by
        intro g ⟨h1, h2, h3⟩
        by_cases e : g = k
        · exact e ▸ .refl
        · exact hr g ⟨h1, h2, fun hx => h3 (Dict.mem_keys_del.2 ⟨hx, e⟩)⟩
      have l0 : (Dict.del s.2 k).length ≤ n := by have := del_len hk; omega
      have loop : ∀ (l : List String) (t : List String × Dict String (List String)), (∀ x ∈ l, x ∈ subs) → t.2.length ≤ n → Good G t →
          (∀ g, Gray G t g → Relation.ReflTransGen (Inc G) g k) →
          Step G t (l.foldl (fun s' k' => visit n k' s') t) ∧
            ∀ x ∈ l, x ∉ Dict.keys (l.foldl (fun s' k' => visit n k' s') t).2 := by
        intro l
        induction l with
        | nil => exact fun t _ _ ht _ => ⟨Step.refl ht, fun x hx => absurd hx (by simp)⟩
        | cons x xs ih =>
          intro t hl hn' ht hgr
          obtain ⟨s1, s2⟩ := visit_step n x t hn' ht
            (fun g hg' => (hgr g hg').tail ⟨subs, hkG, hl x (List.mem_cons_self ..)⟩)
          obtain ⟨s3, s4⟩ := ih (visit n x t) (fun y hy => hl y (List.mem_cons_of_mem _ hy)) (Nat.le_trans s1.len hn') s1.good
            (fun g hg' => hgr g ((s1.gray g).1 hg'))
          refine ⟨s1.trans s3, fun y hy => ?_⟩
          rcases List.mem_cons.1 hy with rfl | hy
          · exact fun h => s2 (s3.rem _ h)
          · exact s4 y hy
      obtain ⟨st, gone⟩ := loop subs (s.1, Dict.del s.2 k) (fun _ h => h) l0 g0 gr0
      generalize hR : subs.foldl (fun s' k' => visit n k' s') (s.1, Dict.del s.2 k) = R at st gone
      have hkr : k ∉ Dict.keys R.2 := fun h => (Dict.mem_keys_del.1 (st.rem k h)).2 rfl
      have hko : k ∉ R.1 := ((st.gray k).2 ⟨hkGm, fun h => hg.disj k h hkm, fun h => (Dict.mem_keys_del.1 h).2 rfl⟩).2.1
      refine ⟨⟨⟨?_, st.good.rnodup, ?_, st.good.sub, ?_, ?_⟩, ?_, fun x hx => ?_, fun x hx => ?_, fun x hx => ?_, ?_⟩, hkr⟩
      · exact List.nodup_append.2 ⟨st.good.nodup, by simp, by
          intro a ha b hb; rw [List.mem_singleton.1 hb]; exact fun e => hko (e ▸ ha)⟩
      · intro x hx
        rcases List.mem_append.1 hx with hx | hx
        · exact st.good.disj x hx
        · rw [List.mem_singleton.1 hx]; exact hkr
      · intro x hx
        rcases List.mem_append.1 hx with hx | hx
        · exact st.good.insub x hx
        · rw [List.mem_singleton.1 hx]; exact hkGm
      · intro a x b hab d hd hdG
        rcases List.eq_nil_or_concat b with rfl | ⟨b', y, rfl⟩
        · have h1 := List.append_inj_right' hab rfl
          have h2 := List.append_inj_left' hab rfl
          simp only [List.cons.injEq, and_true] at h1
          subst h1
          obtain ⟨subs', e1, e2⟩ := hd
          rw [hkG] at e1
          cases e1
          have hdr := gone d e2
          rw [← h2]
          by_cases hdo : d ∈ R.1
          · exact .inl hdo
          · exact .inr (gr0 d ((st.gray d).1 ⟨hdG, hdo, hdr⟩))
        · have e : R.1 ++ [k] = (a ++ x :: b') ++ [y] := by
            have h := hab
            simp only [List.concat_eq_append] at h
            rw [h]; simp
          exact st.good.before a x b' (List.append_inj_left' e rfl) d hd hdG
      · intro g
        constructor
        · rintro ⟨h1, h2, h3⟩
          have hgk : g ≠ k := fun e => h2 (by simp [e])
          have := (st.gray g).1 ⟨h1, fun h => h2 (by simp [h]), h3⟩
          exact ⟨h1, this.2.1, fun h => this.2.2 (Dict.mem_keys_del.2 ⟨h, hgk⟩)⟩
        · rintro ⟨h1, h2, h3⟩
          have := (st.gray g).2 ⟨h1, h2, fun h => h3 (Dict.mem_keys_del.1 h).1⟩
          refine ⟨h1, fun h => ?_, this.2.2⟩
          rcases List.mem_append.1 h with h | h
          · exact this.2.1 h
          · exact h3 (List.mem_singleton.1 h ▸ hkm)
      · exact List.mem_append_left _ (st.keep x hx)
      · exact (Dict.mem_keys_del.1 (st.rem x hx)).1
      · by_cases e : x = k
        · exact .inl (by simp [e])
        · exact (st.all x (Dict.mem_keys_del.2 ⟨hx, e⟩)).imp (List.mem_append_left _) id
      · exact Nat.le_trans st.len (Nat.le_of_lt (del_len hk))

/-- all keys, once each, and what a namespace includes before it -/
theorem order_spec {deps : Dict String (List String)} (hn : (Dict.keys deps).Nodup) :
    (orderDeps deps).Perm (Dict.keys deps) ∧ Good deps (orderDeps deps, []) := by
  have loop : ∀ (l : List String) (t : List String × Dict String (List String)), t.2.length ≤ deps.length → Good deps t →
      (∀ g, ¬ Gray deps t g) →
      Step deps t (l.foldl (fun s k => visit deps.length k s) t) ∧
        ∀ x ∈ l, x ∉ Dict.keys (l.foldl (fun s k => visit deps.length k s) t).2 := by
    intro l
    induction l with
    | nil => exact fun t _ ht _ => ⟨Step.refl ht, fun x hx => absurd hx (by simp)⟩
    | cons x xs ih =>
      intro t hn' ht hgr
      obtain ⟨s1, s2⟩ := visit_step deps.length x t hn' ht (fun g hg' => (hgr g hg').elim)
      obtain ⟨s3, s4⟩ := ih (visit deps.length x t) (Nat.le_trans s1.len hn') s1.good
        (fun g hg' => hgr g ((s1.gray g).1 hg'))
      refine ⟨s1.trans s3, fun y hy => ?_⟩
      rcases List.mem_cons.1 hy with rfl | hy
      · exact fun h => s2 (s3.rem _ h)
      · exact s4 y hy
  have g0 : Good deps ([], deps) :=
    ⟨by simp, hn, by simp, fun _ _ h => h, by simp, fun a x b h => by simp at h⟩
  obtain ⟨st, gone⟩ := loop (Dict.keys deps) ([], deps) (Nat.le_refl _) g0 (fun g hg => hg.2.2 hg.1)
  have hall : ∀ x, x ∈ orderDeps deps ↔ x ∈ Dict.keys deps := by
    intro x
    constructor
    · exact st.good.insub x
    · intro hx
      exact (st.all x hx).elim id (fun h => (gone x hx h).elim)
  refine ⟨(List.perm_ext_iff_of_nodup st.good.nodup hn).2 hall, ?_⟩
  exact ⟨st.good.nodup, by simp [Dict.keys], by simp [Dict.keys], by simp [Dict.get?], st.good.insub, st.good.before⟩

/-! ## Versions -/

theorem mem_listed {β : Type} {d : Dict String β} {x : String} : x ∈ listed d ↔ x ∈ Dict.keys d := mem_sorted

theorem insertSorted_pairwise {x : String} : ∀ {l : List String}, l.Pairwise (· ≤ ·) → (insertSorted x l).Pairwise (· ≤ ·)
  | [], _ => by simp [insertSorted]
  | y :: ys, h => by
    unfold insertSorted
    split
    · rename_i hxy
      refine List.pairwise_cons.2 ⟨fun z hz => ?_, h⟩
      rcases List.mem_cons.1 hz with rfl | hz
      · exact hxy
      · exact String.le_trans hxy ((List.pairwise_cons.1 h).1 z hz)
    · rename_i hxy
      refine List.pairwise_cons.2 ⟨fun z hz => ?_, insertSorted_pairwise (List.pairwise_cons.1 h).2⟩
      rcases mem_insertSorted.1 hz with rfl | hz
      · exact (String.le_total z y).resolve_left hxy
      · exact (List.pairwise_cons.1 h).1 z hz

theorem sorted_pairwise : ∀ {l : List String}, (sorted l).Pairwise (· ≤ ·)
  | [] => by simp [sorted]
  | _ :: _ => insertSorted_pairwise sorted_pairwise

theorem insertSorted_perm {x : String} : ∀ {l : List String}, (insertSorted x l).Perm (x :: l)
  | [] => by simp [insertSorted]
  | y :: ys => by
    unfold insertSorted
    split
    · exact .refl _
    · exact (List.Perm.cons y insertSorted_perm).trans (List.Perm.swap x y ys)

theorem sorted_perm : ∀ {l : List String}, (sorted l).Perm l
  | [] => .refl _
  | x :: _ => insertSorted_perm.trans (List.Perm.cons x sorted_perm)

/-- the last of a list in order is the largest -/
theorem last_max {l : List String} (h : l.Pairwise (· ≤ ·)) {v : String} (hv : l.getLast? = some v) : v ∈ l ∧ ∀ w ∈ l, w ≤ v := by
  obtain ⟨ys, rfl⟩ := List.getLast?_eq_some_iff.1 hv
  refine ⟨by simp, fun w hw => ?_⟩
  rcases List.mem_append.1 hw with hw | hw
  · exact (List.pairwise_append.1 h).2.2 w hw v (by simp)
  · rw [List.mem_singleton.1 hw]; exact String.le_refl _

/-- which version it is -/
theorem latest_spec {l : List String} (hp : l.Pairwise (· ≤ ·)) (hn : l.Nodup) {v : String} (h : latest l = .ok v) :
    v ∈ l ∧ ∀ w ∈ l, w ≠ "None" → w ≠ "unversioned" → w ≤ v ∧ v ≠ "None" ∧ v ≠ "unversioned" := by
  unfold latest at h
  simp only at h
  generalize h1 : (if 1 < l.length then l.erase "unversioned" else l) = v1 at h
  generalize h2 : (if 1 < v1.length then v1.erase "None" else v1) = v2 at h
  split at h
  · cases h
  · rename_i x hx
    cases h
    have s1 : v1.Sublist l := by rw [← h1]; split; exacts [List.erase_sublist, .refl _]
    have s2 : v2.Sublist v1 := by rw [← h2]; split; exacts [List.erase_sublist, .refl _]
    obtain ⟨m1, m2⟩ := last_max (hp.sublist (s2.trans s1)) hx
    refine ⟨(s2.trans s1).mem m1, fun w hw hw1 hw2 => ?_⟩
    have w1 : w ∈ v1 := by
      rw [← h1]; split
      · exact (List.mem_erase_of_ne hw2).2 hw
      · exact hw
    have w2 : w ∈ v2 := by
      rw [← h2]; split
      · exact (List.mem_erase_of_ne hw1).2 w1
      · exact w1
    refine ⟨m2 w w2, fun e => ?_, fun e => ?_⟩
    · subst e
      by_cases hl : 1 < v1.length
      · rw [if_pos hl] at h2
        rw [← h2] at m1
        exact ((hn.sublist s1).mem_erase_iff.1 m1).1 rfl
      · obtain ⟨a, rfl⟩ : ∃ a, v1 = [a] := by
          rcases v1 with _ | ⟨a, _ | ⟨b, t⟩⟩
          · cases w1
          · exact ⟨a, rfl⟩
          · simp at hl
        have := s2.mem m1
        simp only [List.mem_singleton] at this w1
        exact hw1 (w1.trans this.symm)
    · subst e
      have m1' := s2.mem m1
      by_cases hl : 1 < l.length
      · rw [if_pos hl] at h1
        rw [← h1] at m1'
        exact (hn.mem_erase_iff.1 m1').1 rfl
      · obtain ⟨a, rfl⟩ : ∃ a, l = [a] := by
          rcases l with _ | ⟨a, _ | ⟨b, t⟩⟩
          · cases hw
          · exact ⟨a, rfl⟩
          · simp at hl
        have := s1.mem m1'
        simp only [List.mem_singleton] at this hw
        exact hw2 (hw.trans this.symm)

theorem versionsLoop_keep {α : Type} {c : Cache α} : ∀ {l : List String} {acc d : Dict String String},
    versionsLoop c acc l = .ok d → ∀ k, k ∉ l → Dict.get? d k = Dict.get? acc k
  | [], acc, d, h, k, _ => by cases h; rfl
  | ns :: rest, acc, d, h, k, hk => by
    unfold versionsLoop at h
    split at h
    · cases h
    · rw [versionsLoop_keep h k (fun x => hk (List.mem_cons_of_mem _ x)), Dict.get?_set_ne (fun e => hk (by simp [e]))]

theorem versionsLoop_spec {α : Type} {c : Cache α} : ∀ {l : List String} {acc d : Dict String String},
    versionsLoop c acc l = .ok d → ∀ k ∈ l, ∃ v, Dict.get? d k = some v ∧ latest (listed ((Dict.get? c k).getD [])) = .ok v
  | [], _, _, _, k, hk => absurd hk (by simp)
  | ns :: rest, acc, d, h, k, hk => by
    unfold versionsLoop at h
    split at h
    · cases h
    · rename_i v hv
      by_cases hr : k ∈ rest
      · exact versionsLoop_spec h k hr
      · rcases List.mem_cons.1 hk with rfl | hk
        · exact ⟨v, by rw [versionsLoop_keep h k hr, Dict.get?_set_self], hv⟩
        · exact (hr hk).elim

theorem getNamespaces_spec {α : Type} {c : Cache α} {d : Dict String String} (h : getNamespaces c = .ok d) {ns : String}
    {g : Dict String (Option α)} (hg : Dict.get? c ns = some g) :
    ∃ v, Dict.get? d ns = some v ∧ latest (listed g) = .ok v := by
  have hm : ns ∈ listed c := mem_listed.2 (Dict.mem_keys_of_mem (Dict.mem_of_get? hg))
  obtain ⟨v, h1, h2⟩ := versionsLoop_spec h ns hm
  rw [hg] at h2
  exact ⟨v, h1, h2⟩

theorem erase_ne_nil {l : List String} {a : String} (h : 1 < l.length) : l.erase a ≠ [] := by
  intro e
  have := List.length_erase (a := a) (l := l)
  rw [e] at this
  split at this <;> simp at this <;> omega

theorem latest_ok {l : List String} (h0 : l ≠ []) : ∃ v, latest l = .ok v := by
  unfold latest
  simp only
  generalize h1 : (if 1 < l.length then l.erase "unversioned" else l) = v1
  generalize h2 : (if 1 < v1.length then v1.erase "None" else v1) = v2
  have e1 : v1 ≠ [] := by
    rw [← h1]; split
    · exact erase_ne_nil (by assumption)
    · exact h0
  have e2 : v2 ≠ [] := by
    rw [← h2]; split
    · exact erase_ne_nil (by assumption)
    · exact e1
  rw [List.getLast?_eq_some_getLast e2]
  exact ⟨_, rfl⟩

theorem versionsLoop_total {α : Type} {c : Cache α} (hne : ∀ ns g, Dict.get? c ns = some g → g ≠ []) : ∀ {l : List String}
    {acc : Dict String String}, (∀ k ∈ l, k ∈ Dict.keys c) → ∃ d, versionsLoop c acc l = .ok d
  | [], acc, _ => ⟨acc, rfl⟩
  | ns :: rest, acc, hk => by
    unfold versionsLoop
    obtain ⟨g, hg⟩ : ∃ g, Dict.get? c ns = some g := by
      cases hg : Dict.get? c ns with
      | none => exact absurd (hk ns (by simp)) (Dict.get?_eq_none_iff.1 hg)
      | some g => exact ⟨g, rfl⟩
    have h0 : listed g ≠ [] := by
      intro e
      cases hgg : g with
      | nil => exact hne ns g hg hgg
      | cons p t =>
        have : p.1 ∈ listed g := mem_listed.2 (by simp [hgg, Dict.keys])
        rw [e] at this
        cases this
    obtain ⟨v, hv⟩ : ∃ v, latest (listed g) = .ok v := by
      exact latest_ok h0
    simp only [hg, Option.getD_some, hv]
    exact versionsLoop_total hne (fun k hk' => hk k (List.mem_cons_of_mem _ hk'))

/-! ## Loading -/

/-- the file as `__cache_spec` writes it: each group has one namespace, of the name and version of the group, and groups of different
names are different places -/
structure Written (c : Cache Reader) : Prop where
  one : ∀ ns g v x, Dict.get? c ns = some g → Dict.get? g v = some x →
    ∃ r d, x = some r ∧ r.readNs nsPath = .ok [d] ∧ d.name = ns ∧ d.version = v
  dirs : ∀ ns g v r ns' g' v' r', Dict.get? c ns = some g → Dict.get? g v = some (some r) →
    Dict.get? c ns' = some g' → Dict.get? g' v' = some (some r') → r.dir = r'.dir → ns = ns'

/-- the reader and the definition of a namespace, in the version used -/
def Chosen (c : Cache Reader) (vs : Dict String String) (ns : String) (r : Reader) (d : NSDef) : Prop :=
  ∃ v g, Dict.get? vs ns = some v ∧ Dict.get? c ns = some g ∧ Dict.get? g v = some (some r) ∧ r.readNs nsPath = .ok [d] ∧ d.name = ns ∧
    d.version = v

/-- in the file, in whatever version -/
def Uses (c : Cache Reader) (a b : String) : Prop :=
  ∃ g v r d, Dict.get? c a = some g ∧ Dict.get? g v = some (some r) ∧ r.readNs nsPath = .ok [d] ∧ b ∈ includes d

theorem readersLoop_spec {c : Cache Reader} (hw : Written c) {vs : Dict String String} : ∀ {l : List String} {rs rs' : Dict String Reader}
    {deps deps' : Dict String (List String)}, readersLoop c vs rs deps l = .ok (rs', deps') → (Dict.keys deps).Nodup →
    (Dict.keys deps').Nodup ∧ (∀ k, k ∈ Dict.keys deps' ↔ k ∈ Dict.keys deps ∨ k ∈ l) ∧
    (∀ k, k ∉ l → Dict.get? rs' k = Dict.get? rs k ∧ Dict.get? deps' k = Dict.get? deps k) ∧
    ∀ k ∈ l, ∃ r d, Chosen c vs k r d ∧ Dict.get? rs' k = some r ∧ Dict.get? deps' k = some (includes d)
  | [], rs, rs', deps, deps', h, hn => by
    cases h
    exact ⟨hn, by simp, fun _ _ => ⟨rfl, rfl⟩, by simp⟩
  | ns :: rest, rs, rs', deps, deps', h, hn => by
    unfold readersLoop at h
    split at h
    · cases h
    · rename_i v hv
      split at h
      · cases h
      · rename_i r hr
        split at h
        · cases h
        · rename_i defs hd
          obtain ⟨g, hg, hgv⟩ : ∃ g, Dict.get? c ns = some g ∧ Dict.get? g v = some (some r) := by
            cases hg : Dict.get? c ns with
            | none => simp [hg] at hr
            | some g =>
              refine ⟨g, rfl, ?_⟩
              cases hgv : Dict.get? g v with
              | none => simp [hg, hgv] at hr
              | some x => simp [hg, hgv] at hr; rw [hr]
          obtain ⟨r', d, e1, e2, e3, e4⟩ := hw.one ns g v _ hg hgv
          cases e1
          rw [e2] at hd
          cases hd
          simp only [depsOf] at h
          obtain ⟨q1, q2, q3, q4⟩ := readersLoop_spec hw h (Dict.set_nodup hn)
          refine ⟨q1, fun k => ?_, fun k hk => ?_, fun k hk => ?_⟩
          · rw [q2, Dict.mem_keys_set, List.mem_cons]
            constructor
            · rintro ((h | h) | h)
              · exact .inr (.inl h)
              · exact .inl h
              · exact .inr (.inr h)
            · rintro (h | h | h)
              · exact .inl (.inr h)
              · exact .inl (.inl h)
              · exact .inr h
          · have hk1 : k ≠ ns := fun e => hk (by simp [e])
            obtain ⟨a, b⟩ := q3 k (fun h => hk (List.mem_cons_of_mem _ h))
            rw [a, b, Dict.get?_set_ne hk1, Dict.get?_set_ne hk1]
            exact ⟨rfl, rfl⟩
          · by_cases hr' : k ∈ rest
            · exact q4 k hr'
            · rcases List.mem_cons.1 hk with rfl | hk
              · obtain ⟨a, b⟩ := q3 k hr'
                exact ⟨r, d, ⟨v, g, hv, hg, hgv, e2, e3, e4⟩, by rw [a, Dict.get?_set_self], by rw [b, Dict.get?_set_self]⟩
              · exact (hr' hk).elim

theorem readersLoop_total {c : Cache Reader} (hw : Written c) {vs : Dict String String} (hvs : ∀ ns, ns ∈ Dict.keys c →
    ∃ v g x, Dict.get? vs ns = some v ∧ Dict.get? c ns = some g ∧ Dict.get? g v = some x) : ∀ {l : List String} {rs : Dict String Reader}
    {deps : Dict String (List String)}, (∀ k ∈ l, k ∈ Dict.keys c) → ∃ r, readersLoop c vs rs deps l = .ok r
  | [], rs, deps, _ => ⟨_, rfl⟩
  | ns :: rest, rs, deps, hk => by
    obtain ⟨v, g, x, h1, h2, h3⟩ := hvs ns (hk ns (by simp))
    obtain ⟨r, d, rfl, h4, _⟩ := hw.one ns g v x h2 h3
    unfold readersLoop
    simp only [h1, h2, h3, h4, Option.bind_some, Option.join_some]
    exact readersLoop_total hw hvs (fun k hk' => hk k (List.mem_cons_of_mem _ hk'))

/-- one namespace loaded -/
theorem load_one {r : Reader} {st st' : State} {d : NSDef} {ret : Dict String Included}
    (h : Namespace.load r true st nsPath = (st', .ok ret)) (hf : Dict.get? st.includedSpecs (r.dir ++ "/" ++ nsPath) = none)
    (hd : r.readNs nsPath = .ok [d]) :
    (∃ n, Dict.get? st'.namespaces d.name = some n ∧ (d.name ∉ Dict.keys st.namespaces → n.version = d.version)) ∧
      st'.includedSpecs = Dict.set st.includedSpecs (r.dir ++ "/" ++ nsPath) ret ∧
      ∀ k ∈ Dict.keys st'.namespaces, k ∈ Dict.keys st.namespaces ∨ k = d.name := by
  unfold Namespace.load at h
  simp only [hf, hd] at h
  by_cases hh : Dict.has st.namespaces d.name = true
  · simp only [List.filter_cons, hh, Bool.not_true, Bool.false_eq_true, if_false, List.filter_nil, Namespace.loadLoop] at h
    cases h
    refine ⟨?_, rfl, fun k hk => .inl hk⟩
    obtain ⟨n, hn⟩ := Option.isSome_iff_exists.1 hh
    exact ⟨n, hn, fun hx => (hx (Dict.has_iff.1 hh)).elim⟩
  · have hf' : Dict.has st.namespaces d.name = false := by simpa using hh
    simp only [List.filter_cons, hf', Bool.not_false, if_true, List.filter_nil, Namespace.loadLoop] at h
    cases hl : Namespace.loadNamespace r true st d with
    | mk st1 res =>
      rw [hl] at h
      cases res with
      | error e => cases h
      | ok inc =>
        simp only at h
        cases h
        have hfr := (@loadNamespace_frame r true st d).2
        rw [hl] at hfr
        unfold loadNamespace at hl
        rw [if_neg (by simp [hf'])] at hl
        split at hl
        · cases hl
        · split at hl
          · cases hl
          · cases hl
            rename_i hs
            have hns := (@schemaLoop_frame r true d.name d.schema st {} []).2.1
            rw [hs] at hns
            simp only at hns hfr
            refine ⟨⟨_, Dict.get?_set_self, fun _ => rfl⟩, by rw [hfr], fun k hk => ?_⟩
            rw [hns, Dict.mem_keys_set] at hk
            exact hk.symm

theorem load_frame {r : Reader} {st : State} : Frame st (Namespace.load r true st nsPath).1 := by
  obtain ⟨a, b, c, d⟩ := @C55_load_keeps_partial r true st nsPath
  exact ⟨a, b, c, d⟩

theorem loadLoop_frame' {rs : Dict String Reader} : ∀ {l : List String} {st : State}, Frame st (loadLoop rs st l).1
  | [], st => Frame.refl
  | ns :: rest, st => by
    unfold loadLoop
    split
    · exact Frame.refl
    · rename_i r hr
      have := @load_frame r st
      split
      · rename_i h; rw [h] at this; exact this
      · rename_i h; rw [h] at this; exact this.trans loadLoop_frame'

theorem dir_inj {a b : String} (h : a ++ "/" ++ nsPath = b ++ "/" ++ nsPath) : a = b := by
  have := congrArg String.toList h
  simp only [String.toList_append, List.append_assoc] at this
  exact String.toList_inj.1 (List.append_cancel_right this)

theorem loadLoop_loaded {rs : Dict String Reader} {ds : String → NSDef} : ∀ {l : List String} {st st' : State},
    loadLoop rs st l = (st', .ok ()) → l.Nodup →
    (∀ k ∈ l, ∃ r, Dict.get? rs k = some r ∧ r.readNs nsPath = .ok [ds k] ∧ (ds k).name = k ∧
      Dict.get? st.includedSpecs (r.dir ++ "/" ++ nsPath) = none) →
    (∀ k ∈ l, ∀ k' ∈ l, ∀ r r', Dict.get? rs k = some r → Dict.get? rs k' = some r' → r.dir = r'.dir → k = k') →
    (∀ k ∈ l, ∃ n, Dict.get? st'.namespaces k = some n ∧ (k ∉ Dict.keys st.namespaces → n.version = (ds k).version)) ∧
    (∀ k, k ∈ Dict.keys st'.namespaces → k ∈ Dict.keys st.namespaces ∨ k ∈ l)
  | [], st, st', h, _, _, _ => by cases h; exact ⟨by simp, fun k hk => .inl hk⟩
  | ns :: rest, st, st', h, hn, hr, hd => by
    unfold loadLoop at h
    obtain ⟨r, h1, h2, h3, h4⟩ := hr ns (by simp)
    simp only [h1] at h
    cases hl : Namespace.load r true st nsPath with
    | mk st1 res =>
      rw [hl] at h
      cases res with
      | error e => cases h
      | ok ret =>
        simp only at h
        obtain ⟨⟨n, q1, q2⟩, q3, q4⟩ := load_one hl h4 h2
        have hn' := List.nodup_cons.1 hn
        have fr := @loadLoop_frame' rs rest st1
        rw [h] at fr
        obtain ⟨p1, p2⟩ := loadLoop_loaded (ds := ds) h hn'.2 (fun k hk => by
          obtain ⟨r', a1, a2, a3, a4⟩ := hr k (List.mem_cons_of_mem _ hk)
          refine ⟨r', a1, a2, a3, ?_⟩
          rw [q3, Dict.get?_set_ne ?_, a4]
          intro e
          have := hd k (List.mem_cons_of_mem _ hk) ns (by simp) r' r a1 h1 (dir_inj e)
          exact hn'.1 (this ▸ hk)) (fun k hk k' hk' => hd k (List.mem_cons_of_mem _ hk) k' (List.mem_cons_of_mem _ hk'))
        rw [h3] at q1 q2 q4
        refine ⟨fun k hk => ?_, fun k hk => ?_⟩
        · rcases List.mem_cons.1 hk with rfl | hk
          · exact ⟨n, fr.ns _ _ q1, q2⟩
          · obtain ⟨m, m1, m2⟩ := p1 k hk
            refine ⟨m, m1, fun hx => m2 (fun hx' => ?_)⟩
            rcases q4 k hx' with h | h
            · exact hx h
            · exact hn'.1 (h ▸ hk)
        · rcases p2 k hk with hk | hk
          · rcases q4 k hk with hk | hk
            · exact .inl hk
            · exact .inr (by simp [hk])
          · exact .inr (List.mem_cons_of_mem _ hk)

theorem loadLoop_failure {rs : Dict String Reader} {e : Err} : ∀ {l : List String} {st st' : State},
    loadLoop rs st l = (st', .error e) → (∀ k ∈ l, ∃ r, Dict.get? rs k = some r) →
    ∃ pre ns post st1 r, l = pre ++ ns :: post ∧ loadLoop rs st pre = (st1, .ok ()) ∧ Dict.get? rs ns = some r ∧
      Namespace.load r true st1 nsPath = (st', .error e)
  | [], st, st', h, _ => by cases h
  | ns :: rest, st, st', h, hr => by
    unfold loadLoop at h
    obtain ⟨r, h1⟩ := hr ns (by simp)
    simp only [h1] at h
    cases hl : Namespace.load r true st nsPath with
    | mk st1 res =>
      rw [hl] at h
      cases res with
      | error x =>
        cases h
        exact ⟨[], ns, rest, st, r, rfl, rfl, h1, hl⟩
      | ok ret =>
        simp only at h
        obtain ⟨pre, m, post, s1, r', e1, e2, e3, e4⟩ := loadLoop_failure h (fun k hk => hr k (List.mem_cons_of_mem _ hk))
        refine ⟨ns :: pre, m, post, s1, r', by rw [e1]; rfl, ?_, e3, e4⟩
        simp only [loadLoop, h1, hl, e2]

end Verif.SpecCache
