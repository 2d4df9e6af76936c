import Verif.Model.Docval
import Verif.Base.Tac

namespace Verif.Docval
open Verif

/-- Independent description of argument binding: walk through the parameters; a keyword value wins, else the next
unused positional value, else the default; `none` if a required parameter gets nothing. -/
def assign (kwargs : Dict String Val) : List Param → List Val → Option (List (Param × Val))
  | [], _ => some []
  | p :: ps, as =>
    match Dict.get? kwargs p.name with
    | some v => (assign kwargs ps as).map ((p, v) :: ·)
    | none => match as with
      | a :: as' => (assign kwargs ps as').map ((p, a) :: ·)
      | [] => match p.default with
        | some d => (assign kwargs ps []).map ((p, d) :: ·)
        | none => none

/-- What the function receives for parameter `p` when the caller gave `v`: for a required parameter with a shape
constraint the innermost `.name` attribute having a shape (unless wrapped), otherwise `v` itself. -/
def delivered (cfg : Cfg) (p : Param) (v : Val) : Val :=
  match p.default, p.shape, v with
  | none, some _, .wrapped w => .wrapped w
  | none, some _, v => if cfg.enforceShape then (unpack p.name v).1 else v
  | _, _, v => v

/-- the per-parameter checks report nothing -/
def Passes (cfg : Cfg) (p : Param) (v : Val) : Prop :=
  match p.default with
  | none => checkReq cfg p v = .ok (delivered cfg p v, [], [])
  | some d => checkOpt cfg p d v = .ok ([], [])

theorem shapeCheck_fst {p ss v w e} (h : shapeCheck p ss v = .ok (w, e)) : w = (unpack p.name v).1 := by
  unfold shapeCheck at h
  split at h
  · rename_i hu; simp only [Except.ok.injEq, Prod.mk.injEq] at h; rw [hu]; exact h.1.symm
  · rename_i w' s b hu
    cases hs : shapeOkayMulti s ss with
    | error e' => simp [hs, bind, Except.bind] at h
    | ok okay => simp [hs, bind, Except.bind] at h; rw [hu]; exact h.1.symm

theorem checkReq_fst {cfg p v w te ve} (hp : p.default = none) (h : checkReq cfg p v = .ok (w, te, ve)) :
    w = delivered cfg p v := by
  unfold checkReq at h
  unfold delivered
  rw [hp]
  cases hs : p.shape with
  | none =>
    simp only [hs, bind, Except.bind, Except.ok.injEq, Prod.mk.injEq] at h
    rw [← h.1]
    cases v <;> simp [unwrap]
  | some ss =>
    simp only [hs, bind, Except.bind] at h
    by_cases he : cfg.enforceShape = true
    · simp only [he, if_true] at h
      cases hc : shapeCheck p ss (unwrap v) with
      | error e => simp [hc] at h
      | ok r =>
        obtain ⟨w', e'⟩ := r
        simp only [hc, Except.ok.injEq, Prod.mk.injEq] at h
        have := shapeCheck_fst hc
        cases v <;> simp_all [unwrap]
    · simp only [he] at h
      simp only [Bool.false_eq_true, if_false, Except.ok.injEq, Prod.mk.injEq] at h
      cases v <;> simp_all [unwrap]

theorem drop_eq_of_getElem? {α} {l : List α} {i : Nat} {a : α} (h : l[i]? = some a) :
    l.drop i = a :: l.drop (i + 1) := by
  have hlt : i < l.length := by
    rcases Nat.lt_or_ge i l.length with h1 | h1
    · exact h1
    · rw [List.getElem?_eq_none h1] at h; simp at h
  rw [List.drop_eq_getElem_cons hlt]
  rw [List.getElem?_eq_getElem hlt] at h
  simp at h; rw [h]

/-- extras left over after the parameters `ps` have been matched -/
def remaining (extras : Dict String Val) (ps : List Param) : Dict String Val :=
  extras.filter (fun kv => decide (kv.1 ∉ ps.map Param.name))

theorem remaining_cons (extras : Dict String Val) (p : Param) (ps : List Param) :
    remaining (extras.del p.name) ps = remaining extras (p :: ps) := by
  unfold remaining Dict.del
  rw [List.filter_filter]
  congr 1
  funext kv
  by_cases h1 : kv.1 = p.name <;> simp [h1]

theorem remaining_cons_of_not_mem (extras : Dict String Val) (p : Param) (ps : List Param)
    (h : p.name ∉ Dict.keys extras) : remaining extras ps = remaining extras (p :: ps) := by
  unfold remaining
  apply List.filter_congr
  intro kv hkv
  have : kv.1 ≠ p.name := fun e => h (e ▸ List.mem_map_of_mem (f := Prod.fst) hkv)
  simp [this]

/-- `extras` contains only keys of `kwargs` -/
def Sub (extras kwargs : Dict String Val) : Prop := ∀ k ∈ Dict.keys extras, k ∈ Dict.keys kwargs

theorem Sub.del {e k : Dict String Val} {n} (h : Sub e k) : Sub (e.del n) k :=
  fun x hx => h x (Dict.mem_keys_del.1 hx).1

def toRet (cfg : Cfg) (l : List (Param × Val)) : Dict String Val :=
  l.map (fun pv => (pv.1.name, delivered cfg pv.1 pv.2))

theorem delivered_opt {cfg p v d} (h : p.default = some d) : delivered cfg p v = v := by
  unfold delivered; rw [h]

theorem append_eq_nil2 {α} {a b : List α} (h : a ++ b = []) : a = [] ∧ b = [] := List.append_eq_nil_iff.1 h

theorem optLoop_sound (cfg : Cfg) (args : List Val) (kwargs : Dict String Val) (ps : List Param) :
    ∀ (st st' : St), optLoop cfg args kwargs ps st = .ok st' → st'.terr = [] → st'.verr = [] →
      (ps.map Param.name).Nodup → (∀ p ∈ ps, p.name ∉ Dict.keys st.ret) → Sub st.extras kwargs →
      st.terr = [] ∧ st.verr = [] ∧ (∀ p ∈ ps, p.default ≠ none) ∧
      ∃ l, assign kwargs ps (args.drop st.argsi) = some l ∧ (∀ pv ∈ l, Passes cfg pv.1 pv.2) ∧
        st'.ret = st.ret ++ toRet cfg l ∧ st'.extras = remaining st.extras ps := by
  induction ps with
  | nil =>
    intro st st' h ht hv _ _ _
    simp only [optLoop, Except.ok.injEq] at h; subst h
    refine ⟨ht, hv, by simp, [], rfl, by simp, by simp [toRet], ?_⟩
    simp [remaining]
  | cons p ps ih =>
    intro st st' h ht hv hn hf hsub
    simp only [List.map_cons, List.nodup_cons] at hn
    cases hd : p.default with
    | none => simp [optLoop, hd] at h
    | some d =>
      have hpn : p.name ∉ Dict.keys st.ret := hf p List.mem_cons_self
      have hfresh : ∀ v, ∀ q ∈ ps, q.name ∉ Dict.keys (st.ret.set p.name v) := by
        intro v q hq hc
        rcases Dict.mem_keys_set.1 hc with e | hc
        · exact hn.1 (e ▸ List.mem_map_of_mem hq)
        · exact hf q (List.mem_cons_of_mem _ hq) hc
      simp only [optLoop, hd, bind, Except.bind] at h
      cases hk : Dict.get? kwargs p.name with
      | some v =>
        simp only [hk] at h
        cases hc : checkOpt cfg p d v with
        | error e => simp [hc] at h
        | ok r =>
          obtain ⟨te, ve⟩ := r
          simp only [hc] at h
          obtain ⟨h1, h2, h3, l, h4, h5, h6, h7⟩ := ih _ _ h ht hv hn.2 (hfresh v) hsub.del
          obtain ⟨h1a, h1b⟩ := append_eq_nil2 h1
          obtain ⟨h2a, h2b⟩ := append_eq_nil2 h2
          refine ⟨h1a, h2a, ?_, (p, v) :: l, ?_, ?_, ?_, ?_⟩
          · intro q hq; rcases List.mem_cons.1 hq with rfl | hq
            · simp [hd]
            · exact h3 q hq
          · simp only [assign, hk]; simp only at h4; rw [h4]; rfl
          · intro pv hpv; rcases List.mem_cons.1 hpv with rfl | hpv
            · unfold Passes; simp only [hd]; rw [hc, h1b, h2b]
            · exact h5 pv hpv
          · rw [h6]; simp only [Dict.set_of_not_mem hpn, toRet, List.map_cons, delivered_opt hd]; simp
          · rw [h7]; exact remaining_cons _ _ _
      | none =>
        have hne : p.name ∉ Dict.keys st.extras := fun hc =>
          Dict.get?_eq_none_iff.1 hk (hsub _ hc)
        simp only [hk] at h
        cases ha : args[st.argsi]? with
        | some v =>
          simp only [ha] at h
          cases hc : checkOpt cfg p d v with
          | error e => simp [hc] at h
          | ok r =>
            obtain ⟨te, ve⟩ := r
            simp only [hc] at h
            obtain ⟨h1, h2, h3, l, h4, h5, h6, h7⟩ := ih _ _ h ht hv hn.2 (hfresh v) hsub
            obtain ⟨h1a, h1b⟩ := append_eq_nil2 h1
            obtain ⟨h2a, h2b⟩ := append_eq_nil2 h2
            refine ⟨h1a, h2a, ?_, (p, v) :: l, ?_, ?_, ?_, ?_⟩
            · intro q hq; rcases List.mem_cons.1 hq with rfl | hq
              · simp [hd]
              · exact h3 q hq
            · rw [drop_eq_of_getElem? ha]
              simp only [assign, hk]; simp only at h4; rw [h4]; rfl
            · intro pv hpv; rcases List.mem_cons.1 hpv with rfl | hpv
              · unfold Passes; simp only [hd]; rw [hc, h1b, h2b]
              · exact h5 pv hpv
            · rw [h6]; simp only [Dict.set_of_not_mem hpn, toRet, List.map_cons, delivered_opt hd]; simp
            · rw [h7]; exact remaining_cons_of_not_mem _ _ _ hne
        | none =>
          have hdrop : args.drop st.argsi = [] := by
            rw [List.drop_eq_nil_iff]; exact List.getElem?_eq_none_iff.1 ha
          simp only [ha] at h
          cases hc : checkOpt cfg p d d with
          | error e => simp [hc] at h
          | ok r =>
            obtain ⟨te, ve⟩ := r
            simp only [hc] at h
            obtain ⟨h1, h2, h3, l, h4, h5, h6, h7⟩ := ih _ _ h ht hv hn.2 (hfresh d) hsub
            obtain ⟨h1a, h1b⟩ := append_eq_nil2 h1
            obtain ⟨h2a, h2b⟩ := append_eq_nil2 h2
            refine ⟨h1a, h2a, ?_, (p, d) :: l, ?_, ?_, ?_, ?_⟩
            · intro q hq; rcases List.mem_cons.1 hq with rfl | hq
              · simp [hd]
              · exact h3 q hq
            · simp only at h4; rw [hdrop] at h4 ⊢
              simp only [assign, hk, hd]; rw [h4]; rfl
            · intro pv hpv; rcases List.mem_cons.1 hpv with rfl | hpv
              · unfold Passes; simp only [hd]; rw [hc, h1b, h2b]
              · exact h5 pv hpv
            · rw [h6]; simp only [Dict.set_of_not_mem hpn, toRet, List.map_cons, delivered_opt hd]; simp
            · rw [h7]; exact remaining_cons_of_not_mem _ _ _ hne

/-- required parameters given by keyword come after all positional arguments -/
def KwAfter (kwargs : Dict String Val) (nargs : Nat) : List Param → Nat → Prop
  | [], _ => True
  | p :: ps, i => (p.default = none → p.name ∈ Dict.keys kwargs → nargs ≤ i) ∧ KwAfter kwargs nargs ps (i + 1)

theorem kwAfter_of_opt {kwargs nargs} {ps : List Param} {i} (h : ∀ p ∈ ps, p.default ≠ none) :
    KwAfter kwargs nargs ps i := by
  induction ps generalizing i with
  | nil => trivial
  | cons p ps ih =>
    exact ⟨fun hp => absurd hp (h p List.mem_cons_self), ih (fun q hq => h q (List.mem_cons_of_mem _ hq))⟩

theorem reqLoop_sound (cfg : Cfg) (args : List Val) (kwargs : Dict String Val) (ps : List Param) :
    ∀ (st st' : St), reqLoop cfg args kwargs ps st = .ok st' → st'.terr = [] → st'.verr = [] →
      (ps.map Param.name).Nodup → (∀ p ∈ ps, p.name ∉ Dict.keys st.ret) → Sub st.extras kwargs →
      st.terr = [] ∧ st.verr = [] ∧ KwAfter kwargs args.length ps st.argsi ∧
      ∃ l, assign kwargs ps (args.drop st.argsi) = some l ∧ (∀ pv ∈ l, Passes cfg pv.1 pv.2) ∧
        st'.ret = st.ret ++ toRet cfg l ∧ st'.extras = remaining st.extras ps := by
  induction ps with
  | nil =>
    intro st st' h ht hv _ _ _
    simp only [reqLoop, Except.ok.injEq] at h; subst h
    refine ⟨ht, hv, trivial, [], rfl, by simp, by simp [toRet], ?_⟩
    simp [remaining]
  | cons p ps ih =>
    intro st st' h ht hv hn hf hsub
    cases hd : p.default with
    | some d =>
      simp only [reqLoop, hd] at h
      obtain ⟨h1, h2, h3, hl⟩ := optLoop_sound cfg args kwargs (p :: ps) st st' h ht hv hn hf hsub
      exact ⟨h1, h2, kwAfter_of_opt h3, hl⟩
    | none =>
      simp only [List.map_cons, List.nodup_cons] at hn
      have hpn : p.name ∉ Dict.keys st.ret := hf p List.mem_cons_self
      have hfresh : ∀ v, ∀ q ∈ ps, q.name ∉ Dict.keys (st.ret.set p.name v) := by
        intro v q hq hc
        rcases Dict.mem_keys_set.1 hc with e | hc
        · exact hn.1 (e ▸ List.mem_map_of_mem hq)
        · exact hf q (List.mem_cons_of_mem _ hq) hc
      simp only [reqLoop, hd, bind, Except.bind] at h
      cases hk : Dict.get? kwargs p.name with
      | some v =>
        simp only [hk] at h
        cases hc : checkReq cfg p v with
        | error e => simp [hc] at h
        | ok r =>
          obtain ⟨w, te, ve⟩ := r
          simp only [hc] at h
          have hw := checkReq_fst hd hc
          obtain ⟨h1, h2, h3, l, h4, h5, h6, h7⟩ := ih _ _ h ht hv hn.2 (hfresh w) hsub.del
          obtain ⟨h1a, h1b⟩ := append_eq_nil2 h1
          obtain ⟨h1a, h1c⟩ := append_eq_nil2 h1a
          obtain ⟨h2a, h2b⟩ := append_eq_nil2 h2
          have hle : args.length ≤ st.argsi := by
            by_cases hlt : st.argsi < args.length
            · simp [hlt] at h1c
            · omega
          have hdrop : args.drop st.argsi = [] := List.drop_eq_nil_iff.2 hle
          have hdrop' : args.drop (st.argsi + 1) = [] := List.drop_eq_nil_iff.2 (by omega)
          refine ⟨h1a, h2a, ⟨fun _ _ => hle, h3⟩, (p, v) :: l, ?_, ?_, ?_, ?_⟩
          · simp only [assign, hk]; simp only at h4; rw [hdrop]; rw [hdrop'] at h4; rw [h4]; rfl
          · intro pv hpv; rcases List.mem_cons.1 hpv with rfl | hpv
            · unfold Passes; simp only [hd]; rw [hc, h1b, h2b, hw]
            · exact h5 pv hpv
          · rw [h6]; simp only [Dict.set_of_not_mem hpn, toRet, List.map_cons, hw]; simp
          · rw [h7]; exact remaining_cons _ _ _
      | none =>
        have hnk := Dict.get?_eq_none_iff.1 hk
        have hne : p.name ∉ Dict.keys st.extras := fun hc => hnk (hsub _ hc)
        simp only [hk] at h
        cases ha : args[st.argsi]? with
        | some v =>
          simp only [ha] at h
          cases hc : checkReq cfg p v with
          | error e => simp [hc] at h
          | ok r =>
            obtain ⟨w, te, ve⟩ := r
            simp only [hc] at h
            have hw := checkReq_fst hd hc
            obtain ⟨h1, h2, h3, l, h4, h5, h6, h7⟩ := ih _ _ h ht hv hn.2 (hfresh w) hsub
            obtain ⟨h1a, h1b⟩ := append_eq_nil2 h1
            obtain ⟨h1a, h1c⟩ := append_eq_nil2 h1a
            obtain ⟨h2a, h2b⟩ := append_eq_nil2 h2
            refine ⟨h1a, h2a, ⟨fun _ hc => absurd hc hnk, h3⟩, (p, v) :: l, ?_, ?_, ?_, ?_⟩
            · rw [drop_eq_of_getElem? ha]; simp only [assign, hk]; simp only at h4; rw [h4]; rfl
            · intro pv hpv; rcases List.mem_cons.1 hpv with rfl | hpv
              · unfold Passes; simp only [hd]; rw [hc, h1b, h2b, hw]
              · exact h5 pv hpv
            · rw [h6]; simp only [Dict.set_of_not_mem hpn, toRet, List.map_cons, hw]; simp
            · rw [h7]; exact remaining_cons_of_not_mem _ _ _ hne
        | none =>
          simp only [ha] at h
          obtain ⟨h1, _⟩ := ih _ _ h ht hv hn.2 (fun q hq => hf q (List.mem_cons_of_mem _ hq)) hsub
          simp at h1


/-! ### From the loops to `call` -/

/-- required parameters come before those with defaults -/
def ReqFirst : List Param → Prop
  | [] => True
  | p :: ps => (p.default ≠ none → ∀ q ∈ ps, q.default ≠ none) ∧ ReqFirst ps

theorem reqFirst_reorder (sig : List Param) : ReqFirst (reorder sig) := by
  have h1 : ∀ (a b : List Param), (∀ p ∈ a, p.default = none) → (∀ p ∈ b, p.default ≠ none) → ReqFirst (a ++ b) := by
    intro a b ha hb
    induction a with
    | nil =>
      induction b with
      | nil => trivial
      | cons p b ih => exact ⟨fun _ q hq => hb q (List.mem_cons_of_mem _ hq), ih (fun q hq => hb q (List.mem_cons_of_mem _ hq))⟩
    | cons p a ih =>
      exact ⟨fun h => absurd (ha p List.mem_cons_self) h, ih (fun q hq => ha q (List.mem_cons_of_mem _ hq))⟩
  apply h1
  · intro p hp; simpa using (List.mem_filter.1 hp).2
  · intro p hp; have := (List.mem_filter.1 hp).2
    intro e; simp [e] at this

theorem mem_reorder {sig : List Param} {p : Param} : p ∈ reorder sig ↔ p ∈ sig := by
  unfold reorder
  rw [List.mem_append, List.mem_filter, List.mem_filter]
  cases p.default <;> simp

theorem reorder_perm (sig : List Param) : (reorder sig).Perm sig := by
  unfold reorder
  have h : (fun p : Param => p.default.isSome) = (fun p => !p.default.isNone) := by
    funext p; cases p.default <;> rfl
  rw [h]
  exact List.filter_append_perm (fun p : Param => p.default.isNone) sig

theorem foldl_set_append (extras : Dict String Val) : ∀ (ret : Dict String Val),
    (Dict.keys extras).Nodup → (∀ k ∈ Dict.keys extras, k ∉ Dict.keys ret) →
    extras.foldl (fun r kv => r.set kv.1 kv.2) ret = ret ++ extras := by
  induction extras with
  | nil => intro ret _ _; simp
  | cons kv ex ih =>
    intro ret hn hd
    simp only [Dict.keys, List.map_cons, List.nodup_cons] at hn
    have h1 : kv.1 ∉ Dict.keys ret := hd kv.1 (by simp [Dict.keys])
    rw [List.foldl_cons, Dict.set_of_not_mem h1, ih _ hn.2]
    · simp
    · intro k hk hc
      simp only [Dict.keys, List.map_append, List.map_cons, List.map_nil, List.mem_append, List.mem_singleton] at hc
      rcases hc with hc | hc
      · exact hd k (by simp only [Dict.keys, List.map_cons, List.mem_cons]; exact Or.inr hk) hc
      · exact hn.1 (hc ▸ hk)

theorem assign_fst {kwargs : Dict String Val} {ps : List Param} {as : List Val} {l : List (Param × Val)}
    (h : assign kwargs ps as = some l) : l.map Prod.fst = ps := by
  induction ps generalizing as l with
  | nil => simp [assign] at h; subst h; rfl
  | cons p ps ih =>
    simp only [assign] at h
    cases hk : Dict.get? kwargs p.name with
    | some v =>
      simp only [hk, Option.map_eq_some_iff] at h
      obtain ⟨l', h1, rfl⟩ := h; simp [ih h1]
    | none =>
      simp only [hk] at h
      cases as with
      | cons a as =>
        simp only [Option.map_eq_some_iff] at h
        obtain ⟨l', h1, rfl⟩ := h; simp [ih h1]
      | nil =>
        cases hd : p.default with
        | none => simp [hd] at h
        | some d =>
          simp only [hd, Option.map_eq_some_iff] at h
          obtain ⟨l', h1, rfl⟩ := h; simp [ih h1]

/-- the parameters not given by keyword -/
def isFree (kwargs : Dict String Val) (p : Param) : Bool := !(Dict.has kwargs p.name)

theorem isFree_some {kwargs : Dict String Val} {p : Param} {v} (h : Dict.get? kwargs p.name = some v) :
    isFree kwargs p = false := by simp [isFree, Dict.has, h]

theorem isFree_none {kwargs : Dict String Val} {p : Param} (h : Dict.get? kwargs p.name = none) :
    isFree kwargs p = true := by simp [isFree, Dict.has, h]

theorem assign_kw {kwargs : Dict String Val} {ps : List Param} {as : List Val} {l : List (Param × Val)}
    (h : assign kwargs ps as = some l) : ∀ pv ∈ l, ∀ v, Dict.get? kwargs pv.1.name = some v → pv.2 = v := by
  induction ps generalizing as l with
  | nil => simp [assign] at h; subst h; simp
  | cons p ps ih =>
    simp only [assign] at h
    cases hk : Dict.get? kwargs p.name with
    | some v =>
      simp only [hk, Option.map_eq_some_iff] at h
      obtain ⟨l', h1, rfl⟩ := h
      intro pv hpv w hw
      rcases List.mem_cons.1 hpv with rfl | hpv
      · simp only [hk, Option.some.injEq] at hw; exact hw
      · exact ih h1 pv hpv w hw
    | none =>
      simp only [hk] at h
      cases as with
      | cons a as =>
        simp only [Option.map_eq_some_iff] at h
        obtain ⟨l', h1, rfl⟩ := h
        intro pv hpv w hw
        rcases List.mem_cons.1 hpv with rfl | hpv
        · simp [hk] at hw
        · exact ih h1 pv hpv w hw
      | nil =>
        cases hd : p.default with
        | none => simp [hd] at h
        | some d =>
          simp only [hd, Option.map_eq_some_iff] at h
          obtain ⟨l', h1, rfl⟩ := h
          intro pv hpv w hw
          rcases List.mem_cons.1 hpv with rfl | hpv
          · simp [hk] at hw
          · exact ih h1 pv hpv w hw

theorem assign_free {kwargs : Dict String Val} {ps : List Param} {as : List Val} {l : List (Param × Val)}
    (h : assign kwargs ps as = some l) : ∀ (j : Nat) p, (ps.filter (isFree kwargs))[j]? = some p →
      (∀ a, as[j]? = some a → (p, a) ∈ l) ∧
      (as[j]? = none → ∃ d, p.default = some d ∧ (p, d) ∈ l) := by
  induction ps generalizing as l with
  | nil => intro j p hj; simp at hj
  | cons p ps ih =>
    simp only [assign] at h
    cases hk : Dict.get? kwargs p.name with
    | some v =>
      simp only [hk, Option.map_eq_some_iff] at h
      obtain ⟨l', h1, rfl⟩ := h
      intro j q hj
      rw [List.filter_cons_of_neg (by simp [isFree_some hk])] at hj
      obtain ⟨ha, hb⟩ := ih h1 j q hj
      exact ⟨fun a h => List.mem_cons_of_mem _ (ha a h),
        fun h => (hb h).imp fun d hd => ⟨hd.1, List.mem_cons_of_mem _ hd.2⟩⟩
    | none =>
      simp only [hk] at h
      cases as with
      | cons a as =>
        simp only [Option.map_eq_some_iff] at h
        obtain ⟨l', h1, rfl⟩ := h
        intro j q hj
        rw [List.filter_cons_of_pos (isFree_none hk)] at hj
        cases j with
        | zero =>
          simp only [List.getElem?_cons_zero, Option.some.injEq] at hj ⊢
          subst hj
          exact ⟨fun a ha => by simp [ha], fun hc => by simp at hc⟩
        | succ j =>
          simp only [List.getElem?_cons_succ] at hj ⊢
          obtain ⟨ha, hb⟩ := ih h1 j q hj
          exact ⟨fun a h => List.mem_cons_of_mem _ (ha a h),
            fun h => (hb h).imp fun d hd => ⟨hd.1, List.mem_cons_of_mem _ hd.2⟩⟩
      | nil =>
        cases hd : p.default with
        | none => simp [hd] at h
        | some d =>
          simp only [hd, Option.map_eq_some_iff] at h
          obtain ⟨l', h1, rfl⟩ := h
          intro j q hj
          rw [List.filter_cons_of_pos (isFree_none hk)] at hj
          cases j with
          | zero =>
            simp only [List.getElem?_cons_zero, Option.some.injEq] at hj
            subst hj
            exact ⟨fun a ha => by simp at ha, fun _ => ⟨d, hd, List.mem_cons_self⟩⟩
          | succ j =>
            simp only [List.getElem?_cons_succ] at hj
            obtain ⟨ha, hb⟩ := ih h1 j q hj
            exact ⟨fun a h => by simp at h,
              fun _ => (hb (by simp)).imp fun d hd => ⟨hd.1, List.mem_cons_of_mem _ hd.2⟩⟩

theorem toRet_keys {cfg : Cfg} {l : List (Param × Val)} :
    Dict.keys (toRet cfg l) = (l.map Prod.fst).map Param.name := by
  simp [Dict.keys, toRet, Function.comp_def]

theorem remaining_sub {kwargs : Dict String Val} {ps : List Param} {kv} :
    kv ∈ remaining kwargs ps ↔ kv ∈ kwargs ∧ kv.1 ∉ ps.map Param.name := by
  simp [remaining]

/-- everything known about an accepted call -/
structure Accepted (cfg : Cfg) (sig : List Param) (args : List Val) (kwargs : Dict String Val)
    (ret : Dict String Val) (l : List (Param × Val)) : Prop where
  nodup : (sig.map Param.name).Nodup
  kwAfter : KwAfter kwargs args.length (reorder sig) 0
  assigned : assign kwargs (reorder sig) args = some l
  passes : ∀ pv ∈ l, Passes cfg pv.1 pv.2
  ret_eq : ret = toRet cfg l ++ (if cfg.allowExtra ∧ sig ≠ [] then remaining kwargs (reorder sig) else [])
  kwNames : cfg.allowExtra = false → ∀ k ∈ Dict.keys kwargs, k ∈ sig.map Param.name
  count : args.length + (if cfg.allowExtra then 0 else kwargs.length) ≤ sig.length
  pos : args = [] ∨ cfg.allowPos ≠ .error

theorem reorder_names_nodup {sig : List Param} :
    ((reorder sig).map Param.name).Nodup ↔ (sig.map Param.name).Nodup :=
  ((reorder_perm sig).map _).nodup_iff

theorem preCheck_ok {cfg sig args kwargs} : preCheck cfg sig args kwargs = ([], []) ↔
    (sig.map Param.name).Nodup ∧ args.length + (if cfg.allowExtra then 0 else kwargs.length) ≤ sig.length := by
  unfold preCheck
  by_cases h1 : (sig.map Param.name).Nodup
  · cases cfg.allowExtra <;> simp [h1]
  · simp [h1]

theorem call_sound {cfg : Cfg} {sig : List Param} {args : List Val} {kwargs ret : Dict String Val}
    (hkw : (Dict.keys kwargs).Nodup) (h : call cfg sig args kwargs = .ok ret) :
    ∃ l, Accepted cfg sig args kwargs ret l := by
  unfold call at h
  simp only [bind, Except.bind] at h
  cases hp : parseArgs cfg (reorder sig) args kwargs with
  | error e => simp [hp] at h
  | ok pr =>
    simp only [hp] at h
    by_cases ht : pr.terr = []
    swap
    · simp [ht] at h
    by_cases hv : pr.verr = []
    swap
    · simp [ht, hv] at h
    by_cases hs : pr.serr = true
    · simp [ht, hv, hs] at h
    simp only [ht, hv, hs] at h
    simp at h
    subst h
    unfold parseArgs at hp
    by_cases hpre : preCheck cfg (reorder sig) args kwargs = ([], [])
    swap
    · simp only [hpre, ne_eq, not_false_eq_true, if_true, Except.ok.injEq] at hp
      subst hp
      exact absurd (Prod.ext ht hv) hpre
    simp only [hpre, ne_eq, not_true, if_false] at hp
    obtain ⟨hn, hcnt⟩ := preCheck_ok.1 hpre
    have hlen : (reorder sig).length = sig.length := (reorder_perm sig).length_eq
    have hn' := reorder_names_nodup.1 hn
    cases hr : reorder sig with
    | nil =>
      have hsig : sig = [] := by
        have := reorder_perm sig; rw [hr] at this; exact this.nil_eq.symm
      rw [hr] at hp hcnt
      simp only [Except.ok.injEq] at hp
      subst hp
      subst hsig
      simp at hcnt
      refine ⟨[], by simp, ?_, ?_, by simp, by simp [toRet], ?_, by simpa using hcnt, ?_⟩
      · simp [reorder, KwAfter]
      · simp [reorder, assign]
      · intro he k hk
        simp [he] at hcnt
        rw [hcnt.2] at hk; simp [Dict.keys] at hk
      · exact Or.inl hcnt.1
    | cons p0 ps0 =>
      rw [hr] at hp
      simp only [bind, Except.bind] at hp
      cases hl : reqLoop cfg args kwargs (p0 :: ps0) { argsi := 0, ret := [], extras := kwargs, terr := [], verr := [] } with
      | error e => simp [hl] at hp
      | ok st =>
        simp only [hl] at hp
        have hsig : sig ≠ [] := by rintro rfl; simp [reorder] at hr
        have hstt : st.terr = [] ∧ st.verr = [] := by
          by_cases he : cfg.allowExtra = true
          · simp only [he, if_true, Except.ok.injEq] at hp; subst hp; exact ⟨ht, hv⟩
          · simp only [he, Bool.false_eq_true, if_false, Except.ok.injEq] at hp; subst hp
            exact ⟨(append_eq_nil2 ht).1, hv⟩
        obtain ⟨-, -, hka, l, hal, hpass, hret, hex⟩ := reqLoop_sound cfg args kwargs _ _ _ hl hstt.1 hstt.2
          (by rw [← hr]; exact hn) (by simp [Dict.keys]) (fun k hk => hk)
        simp only [List.nil_append, List.drop_zero] at hret hal hka hex
        have hserr : args = [] ∨ cfg.allowPos ≠ .error := by
          have : pr.serr = decide (args ≠ [] ∧ cfg.allowPos = .error) := by
            by_cases he : cfg.allowExtra = true
            · simp only [he, if_true, Except.ok.injEq] at hp; subst hp; rfl
            · simp only [he, Bool.false_eq_true, if_false, Except.ok.injEq] at hp; subst hp; rfl
          rw [this] at hs
          by_cases ha : args = []
          · exact Or.inl ha
          · right; intro hc; simp [ha, hc] at hs
        refine ⟨l, hn', by rw [hr]; exact hka, by rw [hr]; exact hal, hpass, ?_, ?_, by rw [← hlen]; exact hcnt, hserr⟩
        · by_cases he : cfg.allowExtra = true
          · simp only [he, if_true, Except.ok.injEq] at hp
            subst hp
            simp only [he, hsig, ne_eq, not_false_eq_true, and_self, if_true]
            rw [hex, hret, hr]
            apply foldl_set_append
            · exact (List.filter_sublist.map _).nodup hkw
            · intro k hk hc
              rw [toRet_keys, assign_fst hal] at hc
              simp only [Dict.keys, List.mem_map] at hk
              obtain ⟨kv, hkv, rfl⟩ := hk
              exact (remaining_sub.1 hkv).2 hc
          · simp only [he, Bool.false_eq_true, if_false, Except.ok.injEq] at hp
            subst hp
            simp [he, hret]
        · intro he k hk
          simp only [he, Bool.false_eq_true, if_false, Except.ok.injEq] at hp
          subst hp
          have h2 := (append_eq_nil2 ht).2
          rw [List.map_eq_nil_iff, hex] at h2
          simp only [Dict.keys, List.mem_map] at hk
          obtain ⟨kv, hkv, rfl⟩ := hk
          by_contra hc
          have : kv ∈ remaining kwargs (p0 :: ps0) := by
            rw [remaining_sub]; refine ⟨hkv, fun hm => hc ?_⟩
            rw [← hr] at hm
            exact ((reorder_perm sig).map Param.name).mem_iff.1 hm
          rw [h2] at this; simp at this


theorem shapeOkayMulti_err {s ss e} (h : shapeOkayMulti s ss = .error e) : e = .indexError := by
  unfold shapeOkayMulti at h; split at h <;> simp at h <;> exact h.symm

theorem shapeCheck_err {p ss v e} (h : shapeCheck p ss v = .error e) : e = .indexError := by
  unfold shapeCheck at h
  split at h
  · simp at h
  · simp only [bind, Except.bind] at h
    split at h
    · rename_i hx; simp only [Except.error.injEq] at h; exact h ▸ shapeOkayMulti_err hx
    · simp at h

theorem checkReq_err {cfg p v e} (h : checkReq cfg p v = .error e) : e = .indexError := by
  unfold checkReq at h
  simp only [bind, Except.bind] at h
  split at h
  · rename_i hx
    simp only [Except.error.injEq] at h; subst h
    split at hx
    · split at hx
      · exact shapeCheck_err hx
      · simp at hx
    · simp at hx
  · simp at h

theorem checkOpt_err {cfg p d v e} (h : checkOpt cfg p d v = .error e) : e = .indexError := by
  unfold checkOpt at h
  simp only [bind, Except.bind] at h
  split at h
  · rename_i hx
    simp only [Except.error.injEq] at h; subst h
    split at hx
    · split at hx
      · exact shapeCheck_err hx
      · simp at hx
    · simp at hx
  · simp at h

theorem optLoop_err {cfg args kwargs} (ps : List Param) :
    ∀ st e, optLoop cfg args kwargs ps st = .error e → e = .indexError ∨ e = .keyError := by
  induction ps with
  | nil => intro st e h; simp [optLoop] at h
  | cons p ps ih =>
    intro st e h
    cases hd : p.default with
    | none => simp [optLoop, hd] at h; exact Or.inr h.symm
    | some d =>
      simp only [optLoop, hd, bind, Except.bind] at h
      split at h
      · rename_i hx; simp only [Except.error.injEq] at h; subst h; exact Or.inl (checkOpt_err hx)
      · exact ih _ _ h

theorem reqLoop_err' {cfg args kwargs} (ps : List Param) :
    ∀ st e, reqLoop cfg args kwargs ps st = .error e → e = .indexError ∨ e = .keyError := by
  induction ps with
  | nil => intro st e h; simp [reqLoop] at h
  | cons p ps ih =>
    intro st e h
    cases hd : p.default with
    | some d => simp only [reqLoop, hd] at h; exact optLoop_err _ _ _ h
    | none =>
      simp only [reqLoop, hd, bind, Except.bind] at h
      split at h
      · exact ih _ _ h
      · split at h
        · rename_i hx; simp only [Except.error.injEq] at h; subst h; exact Or.inl (checkReq_err hx)
        · exact ih _ _ h

theorem reqLoop_err (cfg args kwargs) (ps : List Param) (st) :
    reqLoop cfg args kwargs ps st ≠ .error .typeError := by
  intro h; rcases reqLoop_err' ps st _ h with h | h <;> simp at h

/-! ### Completeness -/

/-- the type test of parameter `p` on the value given -/
def typePass (cfg : Cfg) (p : Param) (v : Val) : Bool :=
  match p.default with
  | none => checkType cfg.macros (unwrap v) p.ty false
  | some d => checkType cfg.macros (unwrap v) p.ty (d = .none || p.allowNone)

theorem checkReq_te {cfg p v w te ve} (hd : p.default = none) (h : checkReq cfg p v = .ok (w, te, ve)) :
    te = if cfg.enforceType && !typePass cfg p v then [TErr.badType p.name] else [] := by
  simp only [typePass, hd]
  unfold checkReq at h
  simp only [bind, Except.bind] at h
  split at h
  · simp at h
  · rename_i r hr
    obtain ⟨w', ve'⟩ := r
    simp only [Except.ok.injEq, Prod.mk.injEq] at h
    exact h.2.1.symm

theorem checkOpt_te {cfg p d v te ve} (hd : p.default = some d) (h : checkOpt cfg p d v = .ok (te, ve)) :
    te = if cfg.enforceType && !typePass cfg p v then [TErr.badType p.name] else [] := by
  simp only [typePass, hd]
  unfold checkOpt at h
  simp only [bind, Except.bind] at h
  split at h
  · simp at h
  · rename_i r hr
    obtain ⟨w', ve'⟩ := r
    simp only [Except.ok.injEq, Prod.mk.injEq] at h
    exact h.1.symm

theorem passes_type {cfg p v} (h : Passes cfg p v) (he : cfg.enforceType = true) : typePass cfg p v = true := by
  unfold Passes at h
  cases hd : p.default with
  | none =>
    simp only [hd] at h
    have := checkReq_te hd h
    by_contra hc
    simp [he, hc] at this
  | some d =>
    simp only [hd] at h
    have := checkOpt_te hd h
    by_contra hc
    simp [he, hc] at this

/-- one step of `assign` -/
theorem assign_cons {kwargs : Dict String Val} {p : Param} {ps : List Param} {as : List Val} {l}
    (h : assign kwargs (p :: ps) as = some l) :
    ∃ v l', l = (p, v) :: l' ∧
      ((Dict.get? kwargs p.name = some v ∧ assign kwargs ps as = some l') ∨
       (Dict.get? kwargs p.name = none ∧ ∃ as', as = v :: as' ∧ assign kwargs ps as' = some l') ∨
       (Dict.get? kwargs p.name = none ∧ as = [] ∧ p.default = some v ∧ assign kwargs ps [] = some l')) := by
  simp only [assign] at h
  cases hk : Dict.get? kwargs p.name with
  | some v =>
    simp only [hk, Option.map_eq_some_iff] at h
    obtain ⟨l', h1, rfl⟩ := h
    exact ⟨v, l', rfl, Or.inl ⟨rfl, h1⟩⟩
  | none =>
    simp only [hk] at h
    cases as with
    | cons a as =>
      simp only [Option.map_eq_some_iff] at h
      obtain ⟨l', h1, rfl⟩ := h
      exact ⟨a, l', rfl, Or.inr (Or.inl ⟨rfl, as, rfl, h1⟩)⟩
    | nil =>
      cases hd : p.default with
      | none => simp [hd] at h
      | some d =>
        simp only [hd, Option.map_eq_some_iff] at h
        obtain ⟨l', h1, rfl⟩ := h
        exact ⟨d, l', rfl, Or.inr (Or.inr ⟨rfl, rfl, rfl, h1⟩)⟩

theorem getElem?_of_drop {α} {l : List α} {i : Nat} {a : α} {t} (h : l.drop i = a :: t) :
    l[i]? = some a ∧ l.drop (i + 1) = t := by
  constructor
  · have := congrArg (fun x => x[0]?) h
    simpa using this
  · have := congrArg List.tail h
    simpa using this

theorem getElem?_none_of_drop {α} {l : List α} {i : Nat} (h : l.drop i = []) : l[i]? = none := by
  rw [List.drop_eq_nil_iff] at h; exact List.getElem?_eq_none h

/-- If every value passes the type test, the loops report no type error (if they terminate normally). -/
theorem optLoop_types (cfg : Cfg) (args : List Val) (kwargs : Dict String Val) (ps : List Param) :
    ∀ (st st' : St) l, optLoop cfg args kwargs ps st = .ok st' →
      assign kwargs ps (args.drop st.argsi) = some l → (∀ pv ∈ l, typePass cfg pv.1 pv.2 = true) →
      st'.terr = st.terr := by
  induction ps with
  | nil => intro st st' l h _ _; simp only [optLoop, Except.ok.injEq] at h; rw [← h]
  | cons p ps ih =>
    intro st st' l h hl ht
    obtain ⟨v, l', rfl, hv⟩ := assign_cons hl
    have htp := ht _ List.mem_cons_self
    have ht' : ∀ pv ∈ l', typePass cfg pv.1 pv.2 = true := fun pv hpv => ht pv (List.mem_cons_of_mem _ hpv)
    cases hd : p.default with
    | none => simp [optLoop, hd] at h
    | some d =>
      simp only [optLoop, hd, bind, Except.bind] at h
      rcases hv with ⟨hk, ha⟩ | ⟨hk, as', has, ha⟩ | ⟨hk, has, hdd, ha⟩
      · simp only [hk] at h
        cases hc : checkOpt cfg p d v with
        | error e => simp [hc] at h
        | ok r =>
          obtain ⟨te, ve⟩ := r
          simp only [hc] at h
          have := checkOpt_te hd hc
          simp only [htp, Bool.not_true, Bool.and_false, Bool.false_eq_true, if_false] at this
          rw [ih _ _ _ h ha ht', this, List.append_nil]
      · obtain ⟨hg, hdr⟩ := getElem?_of_drop has
        simp only [hk, hg] at h
        cases hc : checkOpt cfg p d v with
        | error e => simp [hc] at h
        | ok r =>
          obtain ⟨te, ve⟩ := r
          simp only [hc] at h
          have := checkOpt_te hd hc
          simp only [htp, Bool.not_true, Bool.and_false, Bool.false_eq_true, if_false] at this
          rw [ih _ _ _ h (by rw [hdr]; exact ha) ht', this, List.append_nil]
      · have hg := getElem?_none_of_drop has
        rw [hd] at hdd; simp only [Option.some.injEq] at hdd; subst hdd
        simp only [hk, hg] at h
        cases hc : checkOpt cfg p d d with
        | error e => simp [hc] at h
        | ok r =>
          obtain ⟨te, ve⟩ := r
          simp only [hc] at h
          have := checkOpt_te hd hc
          simp only [htp, Bool.not_true, Bool.and_false, Bool.false_eq_true, if_false] at this
          rw [ih _ _ _ h (by rw [has]; exact ha) ht', this, List.append_nil]

theorem reqLoop_types (cfg : Cfg) (args : List Val) (kwargs : Dict String Val) (ps : List Param) :
    ∀ (st st' : St) l, reqLoop cfg args kwargs ps st = .ok st' → KwAfter kwargs args.length ps st.argsi →
      assign kwargs ps (args.drop st.argsi) = some l → (∀ pv ∈ l, typePass cfg pv.1 pv.2 = true) →
      st'.terr = st.terr := by
  induction ps with
  | nil => intro st st' l h _ _ _; simp only [reqLoop, Except.ok.injEq] at h; rw [← h]
  | cons p ps ih =>
    intro st st' l h hka hl ht
    cases hd : p.default with
    | some d =>
      simp only [reqLoop, hd] at h
      exact optLoop_types cfg args kwargs _ _ _ _ h hl ht
    | none =>
      obtain ⟨v, l', rfl, hv⟩ := assign_cons hl
      have htp := ht _ List.mem_cons_self
      have ht' : ∀ pv ∈ l', typePass cfg pv.1 pv.2 = true := fun pv hpv => ht pv (List.mem_cons_of_mem _ hpv)
      simp only [reqLoop, hd, bind, Except.bind] at h
      rcases hv with ⟨hk, ha⟩ | ⟨hk, as', has, ha⟩ | ⟨hk, has, hdd, ha⟩
      · have hle := hka.1 hd (Dict.mem_keys_of_mem (Dict.mem_of_get? hk))
        have h0 : ¬ (st.argsi < args.length) := by omega
        simp only [hk, h0, if_false] at h
        cases hc : checkReq cfg p v with
        | error e => simp [hc] at h
        | ok r =>
          obtain ⟨w, te, ve⟩ := r
          simp only [hc] at h
          have := checkReq_te hd hc
          simp only [htp, Bool.not_true, Bool.and_false, Bool.false_eq_true, if_false] at this
          rw [List.drop_eq_nil_iff.2 hle] at ha
          rw [ih _ _ _ h hka.2 (by rw [List.drop_eq_nil_iff.2 (by simp only; omega)]; exact ha) ht', this]
          simp
      · obtain ⟨hg, hdr⟩ := getElem?_of_drop has
        simp only [hk, hg] at h
        cases hc : checkReq cfg p v with
        | error e => simp [hc] at h
        | ok r =>
          obtain ⟨w, te, ve⟩ := r
          simp only [hc] at h
          have := checkReq_te hd hc
          simp only [htp, Bool.not_true, Bool.and_false, Bool.false_eq_true, if_false] at this
          rw [ih _ _ _ h hka.2 (by rw [hdr]; exact ha) ht', this]
          simp
      · rw [hd] at hdd; simp at hdd

theorem optLoop_complete (cfg : Cfg) (args : List Val) (kwargs : Dict String Val) (ps : List Param) :
    ∀ (st : St) l, (∀ p ∈ ps, p.default ≠ none) →
      assign kwargs ps (args.drop st.argsi) = some l → (∀ pv ∈ l, Passes cfg pv.1 pv.2) →
      ∃ st', optLoop cfg args kwargs ps st = .ok st' ∧ st'.terr = st.terr ∧ st'.verr = st.verr := by
  induction ps with
  | nil => intro st l _ _ _; exact ⟨st, rfl, rfl, rfl⟩
  | cons p ps ih =>
    intro st l hall hl ht
    obtain ⟨v, l', rfl, hv⟩ := assign_cons hl
    have htp := ht _ List.mem_cons_self
    have ht' : ∀ pv ∈ l', Passes cfg pv.1 pv.2 := fun pv hpv => ht pv (List.mem_cons_of_mem _ hpv)
    have hall' : ∀ p ∈ ps, p.default ≠ none := fun q hq => hall q (List.mem_cons_of_mem _ hq)
    cases hd : p.default with
    | none => exact absurd hd (hall p List.mem_cons_self)
    | some d =>
      simp only [optLoop, hd, bind, Except.bind]
      unfold Passes at htp
      simp only [hd] at htp
      rcases hv with ⟨hk, ha⟩ | ⟨hk, as', has, ha⟩ | ⟨hk, has, hdd, ha⟩
      · simp only [hk, htp, List.append_nil]
        exact ih ⟨_, _, _, _, _⟩ _ hall' ha ht'
      · obtain ⟨hg, hdr⟩ := getElem?_of_drop has
        simp only [hk, hg, htp, List.append_nil]
        exact ih ⟨_, _, _, _, _⟩ _ hall' (by rw [hdr]; exact ha) ht'
      · have hg := getElem?_none_of_drop has
        rw [hd] at hdd; simp only [Option.some.injEq] at hdd; subst hdd
        simp only [hk, hg, htp, List.append_nil]
        exact ih ⟨_, _, _, _, _⟩ _ hall' (by rw [has]; exact ha) ht'

theorem reqLoop_complete (cfg : Cfg) (args : List Val) (kwargs : Dict String Val) (ps : List Param) :
    ∀ (st : St) l, ReqFirst ps → KwAfter kwargs args.length ps st.argsi →
      assign kwargs ps (args.drop st.argsi) = some l → (∀ pv ∈ l, Passes cfg pv.1 pv.2) →
      ∃ st', reqLoop cfg args kwargs ps st = .ok st' ∧ st'.terr = st.terr ∧ st'.verr = st.verr := by
  induction ps with
  | nil => intro st l _ _ _ _; exact ⟨st, rfl, rfl, rfl⟩
  | cons p ps ih =>
    intro st l hrf hka hl ht
    cases hd : p.default with
    | some d =>
      simp only [reqLoop, hd]
      refine optLoop_complete cfg args kwargs _ _ _ ?_ hl ht
      intro q hq
      rcases List.mem_cons.1 hq with rfl | hq
      · simp [hd]
      · exact hrf.1 (by simp [hd]) q hq
    | none =>
      obtain ⟨v, l', rfl, hv⟩ := assign_cons hl
      have htp := ht _ List.mem_cons_self
      have ht' : ∀ pv ∈ l', Passes cfg pv.1 pv.2 := fun pv hpv => ht pv (List.mem_cons_of_mem _ hpv)
      simp only [reqLoop, hd, bind, Except.bind]
      unfold Passes at htp
      simp only [hd] at htp
      rcases hv with ⟨hk, ha⟩ | ⟨hk, as', has, ha⟩ | ⟨hk, has, hdd, ha⟩
      · have hle := hka.1 hd (Dict.mem_keys_of_mem (Dict.mem_of_get? hk))
        have h0 : ¬ (st.argsi < args.length) := by omega
        simp only [hk, h0, if_false, htp, List.append_nil]
        rw [List.drop_eq_nil_iff.2 hle] at ha
        exact ih ⟨_, _, _, _, _⟩ _ hrf.2 hka.2
          (by rw [List.drop_eq_nil_iff.2 (by simp only; omega)]; exact ha) ht'
      · obtain ⟨hg, hdr⟩ := getElem?_of_drop has
        simp only [hk, hg, htp, List.append_nil]
        exact ih ⟨_, _, _, _, _⟩ _ hrf.2 hka.2 (by rw [hdr]; exact ha) ht'
      · rw [hd] at hdd; simp at hdd

/-- everything required of a call, apart from the values themselves -/
structure WellFormed (cfg : Cfg) (sig : List Param) (args : List Val) (kwargs : Dict String Val)
    (l : List (Param × Val)) : Prop where
  nodup : (sig.map Param.name).Nodup
  kwAfter : KwAfter kwargs args.length (reorder sig) 0
  assigned : assign kwargs (reorder sig) args = some l
  kwNames : cfg.allowExtra = false → ∀ k ∈ Dict.keys kwargs, k ∈ sig.map Param.name
  count : args.length + (if cfg.allowExtra then 0 else kwargs.length) ≤ sig.length

theorem remaining_nil {kwargs : Dict String Val} {sig : List Param}
    (h : ∀ k ∈ Dict.keys kwargs, k ∈ sig.map Param.name) : remaining kwargs (reorder sig) = [] := by
  rw [List.eq_nil_iff_forall_not_mem]
  intro kv hkv
  obtain ⟨h1, h2⟩ := remaining_sub.1 hkv
  exact h2 (((reorder_perm sig).map Param.name).mem_iff.2 (h _ (Dict.mem_keys_of_mem h1)))

theorem reqLoop_extras (cfg : Cfg) (args : List Val) (kwargs : Dict String Val) (ps : List Param) :
    ∀ (st st' : St), reqLoop cfg args kwargs ps st = .ok st' → Sub st.extras kwargs →
      st'.extras = remaining st.extras ps := by
  have hopt : ∀ (ps : List Param) (st st' : St), optLoop cfg args kwargs ps st = .ok st' → Sub st.extras kwargs →
      st'.extras = remaining st.extras ps := by
    intro ps
    induction ps with
    | nil =>
      intro st st' h _
      simp only [optLoop, Except.ok.injEq] at h; subst h
      simp [remaining]
    | cons p ps ih =>
      intro st st' h hsub
      cases hd : p.default with
      | none => simp [optLoop, hd] at h
      | some d =>
        simp only [optLoop, hd, bind, Except.bind] at h
        split at h
        · simp at h
        · cases hk : Dict.get? kwargs p.name with
          | some v =>
            simp only [hk] at h
            rw [ih _ _ h hsub.del]; exact remaining_cons _ _ _
          | none =>
            have hne : p.name ∉ Dict.keys st.extras := fun hc => Dict.get?_eq_none_iff.1 hk (hsub _ hc)
            simp only [hk] at h
            cases ha : args[st.argsi]? with
            | some v =>
              simp only [ha] at h
              rw [ih _ _ h hsub]; exact remaining_cons_of_not_mem _ _ _ hne
            | none =>
              simp only [ha] at h
              rw [ih _ _ h hsub]; exact remaining_cons_of_not_mem _ _ _ hne
  induction ps with
  | nil =>
    intro st st' h _
    simp only [reqLoop, Except.ok.injEq] at h; subst h
    simp [remaining]
  | cons p ps ih =>
    intro st st' h hsub
    cases hd : p.default with
    | some d => simp only [reqLoop, hd] at h; exact hopt _ _ _ h hsub
    | none =>
      simp only [reqLoop, hd, bind, Except.bind] at h
      cases hk : Dict.get? kwargs p.name with
      | some v =>
        simp only [hk] at h
        cases hc : checkReq cfg p v with
        | error e => simp [hc] at h
        | ok r =>
          simp only [hc] at h
          rw [ih _ _ h hsub.del]; exact remaining_cons _ _ _
      | none =>
        have hne : p.name ∉ Dict.keys st.extras := fun hc => Dict.get?_eq_none_iff.1 hk (hsub _ hc)
        simp only [hk] at h
        cases ha : args[st.argsi]? with
        | some v =>
          simp only [ha] at h
          cases hc : checkReq cfg p v with
          | error e => simp [hc] at h
          | ok r =>
            simp only [hc] at h
            rw [ih _ _ h hsub]; exact remaining_cons_of_not_mem _ _ _ hne
        | none =>
          simp only [ha] at h
          rw [ih _ _ h hsub]; exact remaining_cons_of_not_mem _ _ _ hne

/-- no spurious TypeError -/
theorem call_no_typeError {cfg : Cfg} {sig : List Param} {args : List Val} {kwargs : Dict String Val} {l}
    (hw : WellFormed cfg sig args kwargs l) (ht : ∀ pv ∈ l, typePass cfg pv.1 pv.2 = true) :
    call cfg sig args kwargs ≠ .error .typeError := by
  intro h
  unfold call at h
  simp only [bind, Except.bind] at h
  have hlen : (reorder sig).length = sig.length := (reorder_perm sig).length_eq
  have hpre : preCheck cfg (reorder sig) args kwargs = ([], []) :=
    preCheck_ok.2 ⟨reorder_names_nodup.2 hw.nodup, by rw [hlen]; exact hw.count⟩
  cases hp : parseArgs cfg (reorder sig) args kwargs with
  | error e =>
    simp only [hp, Except.error.injEq] at h
    subst h
    unfold parseArgs at hp
    simp only [hpre, ne_eq, not_true, if_false] at hp
    cases hr : reorder sig with
    | nil => simp [hr] at hp
    | cons p0 ps0 =>
      simp only [hr, bind, Except.bind] at hp
      cases hl : reqLoop cfg args kwargs (p0 :: ps0) { argsi := 0, ret := [], extras := kwargs, terr := [], verr := [] } with
      | ok st => simp only [hl] at hp; split at hp <;> simp at hp
      | error e =>
        simp only [hl, Except.error.injEq] at hp
        subst hp
        exact reqLoop_err _ _ _ _ _ hl
  | ok pr =>
    simp only [hp] at h
    have : pr.terr = [] := by
      unfold parseArgs at hp
      simp only [hpre, ne_eq, not_true, if_false] at hp
      cases hr : reorder sig with
      | nil => simp only [hr, Except.ok.injEq] at hp; rw [← hp]
      | cons p0 ps0 =>
        simp only [hr, bind, Except.bind] at hp
        cases hl : reqLoop cfg args kwargs (p0 :: ps0) { argsi := 0, ret := [], extras := kwargs, terr := [], verr := [] } with
        | error e => simp [hl] at hp
        | ok st =>
          simp only [hl] at hp
          have h1 := reqLoop_types _ _ _ _ _ _ l hl (by rw [← hr]; exact hw.kwAfter)
            (by rw [List.drop_zero, ← hr]; exact hw.assigned) ht
          have h2 := reqLoop_extras _ _ _ _ _ _ hl (fun k hk => hk)
          by_cases he : cfg.allowExtra = true
          · simp only [he, if_true, Except.ok.injEq] at hp; subst hp; exact h1
          · simp only [he, Bool.false_eq_true, if_false, Except.ok.injEq] at hp; subst hp
            simp only at h1 h2 ⊢
            rw [h1, h2, ← hr, remaining_nil (hw.kwNames (by simpa using he))]; rfl
    rw [this] at h
    by_cases hv : pr.verr = [] <;> by_cases hs : pr.serr = true <;> simp [hv, hs] at h

theorem call_complete {cfg : Cfg} {sig : List Param} {args : List Val} {kwargs : Dict String Val} {l}
    (hw : WellFormed cfg sig args kwargs l) (hpos : args = [] ∨ cfg.allowPos ≠ .error)
    (ht : ∀ pv ∈ l, Passes cfg pv.1 pv.2) : ∃ ret, call cfg sig args kwargs = .ok ret := by
  have hlen : (reorder sig).length = sig.length := (reorder_perm sig).length_eq
  have hpre : preCheck cfg (reorder sig) args kwargs = ([], []) :=
    preCheck_ok.2 ⟨reorder_names_nodup.2 hw.nodup, by rw [hlen]; exact hw.count⟩
  have hserr : decide (args ≠ [] ∧ cfg.allowPos = .error) = false := by
    rcases hpos with h | h <;> simp [h]
  unfold call parseArgs
  simp only [bind, Except.bind, hpre, ne_eq, not_true, if_false]
  cases hr : reorder sig with
  | nil => exact ⟨[], by simp; intro h; rcases hpos with h' | h'; exact absurd h' h; exact h'⟩
  | cons p0 ps0 =>
    have hrf := reqFirst_reorder sig
    have hka := hw.kwAfter
    have has := hw.assigned
    rw [hr] at hrf hka has
    obtain ⟨st, h1, h2, h3⟩ := reqLoop_complete cfg args kwargs _
      { argsi := 0, ret := [], extras := kwargs, terr := [], verr := [] } l hrf hka (by simpa using has) ht
    have h4 := reqLoop_extras _ _ _ _ _ _ h1 (fun k hk => hk)
    simp only at h2 h3 h4
    simp only [h1, h2, h3]
    rcases Bool.eq_false_or_eq_true cfg.allowExtra with he | he
    · simp only [he, if_true]
      simp only [not_true, if_false]
      rw [hserr]; exact ⟨_, rfl⟩
    · have h5 := remaining_nil (hw.kwNames he)
      rw [hr] at h5
      rw [h4, h5]
      simp only [he, Bool.false_eq_true, if_false, List.map_nil, List.append_nil, not_true]
      rw [hserr]; exact ⟨_, rfl⟩

end Verif.Docval
