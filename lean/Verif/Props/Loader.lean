import Verif.Datapipe

/-!
# Loaders (C86)
-/

set_option linter.unusedSectionVars false
set_option autoImplicit false

namespace DHG
open Pipe

/-! ## Specification -/

/-- a field: not empty, without white space and commas -/
def Spec.Field (t : List Char) : Prop := t ≠ [] ∧ ∀ c ∈ t, isSpace c = false ∧ c ≠ ','

/-- `line` is the fields written one after the other with single commas, blanks or tabs in between -/
inductive Spec.Line : List (List Char) → List Char → Prop
  | last (t : List Char) : Spec.Line [t] t
  | cons (t : List Char) (s : Char) (ts : List (List Char)) (l : List Char)
      (hs : s = ',' ∨ s = ' ' ∨ s = '\t') (h : Spec.Line ts l) : Spec.Line (t :: ts) (t ++ s :: l)

/-- the text made of some lines, each ended by a newline -/
def Spec.text (ls : List (List Char)) : List Char := ls.flatMap fun l => l ++ ['\n']

/-! ## Lemmas -/

theorem cut_none (p : Char → Bool) (s : List Char) (h : ∀ c ∈ s, p c = false) : cut p s = [s] := by
  induction s with
  | nil => rfl
  | cons c s ih =>
    have h1 : p c = false := h c (by simp)
    rw [cut, ih (fun d hd => h d (by simp [hd]))]
    simp [h1]

theorem cut_append (p : Char → Bool) (t : List Char) (c : Char) (s : List Char)
    (h : ∀ d ∈ t, p d = false) (hc : p c = true) : cut p (t ++ c :: s) = t :: cut p s := by
  induction t with
  | nil => simp [cut, hc]
  | cons d t ih =>
    have h1 : p d = false := h d (by simp)
    rw [List.cons_append, cut, ih (fun e he => h e (by simp [he]))]
    simp [h1]

theorem cut_text (ls : List (List Char)) (h : ∀ l ∈ ls, '\n' ∉ l) (rest : List Char) :
    cut (· = '\n') (Spec.text ls ++ rest) = ls ++ cut (· = '\n') rest := by
  induction ls with
  | nil => rfl
  | cons l ls ih =>
    have h1 : Spec.text (l :: ls) ++ rest = l ++ '\n' :: (Spec.text ls ++ rest) := by
      simp [Spec.text]
    rw [h1, cut_append _ _ _ _ _ (by simp), ih (fun m hm => h m (by simp [hm]))]
    · rfl
    · intro d hd
      simp only [decide_eq_false_iff_not]
      rintro rfl
      exact h l (by simp) hd

theorem readLines_text (ls : List (List Char)) (h : ∀ l ∈ ls, '\n' ∉ l) :
    readLines (Spec.text ls) = ls := by
  have := cut_text ls h []
  rw [List.append_nil] at this
  unfold readLines
  rw [this]
  simp [cut]

theorem readLines_text' (ls : List (List Char)) (h : ∀ l ∈ ls, '\n' ∉ l) (l : List Char)
    (hl : '\n' ∉ l) (hne : l ≠ []) : readLines (Spec.text ls ++ l) = ls ++ [l] := by
  have := cut_text ls h l
  rw [cut_none _ l] at this
  · unfold readLines
    rw [this]
    simp [hne]
  · intro c hc
    simp only [decide_eq_false_iff_not]
    rintro rfl
    exact hl hc

theorem mapE_ok {α β : Type} (f : α → Except PErr β) (g : α → β) (l : List α)
    (h : ∀ a ∈ l, f a = .ok (g a)) : mapE f l = .ok (l.map g) := by
  induction l with
  | nil => rfl
  | cons a l ih =>
    rw [mapE, h a (by simp), ih (fun b hb => h b (by simp [hb]))]
    rfl

theorem line_nonempty {ts : List (List Char)} {l : List Char} (h : Spec.Line ts l)
    (ht : ∀ t ∈ ts, Spec.Field t) : l ≠ [] := by
  cases h with
  | last t => exact (ht l (by simp)).1
  | cons t s ts l hs h => simp

theorem line_ends {ts : List (List Char)} {l : List Char} (h : Spec.Line ts l)
    (ht : ∀ t ∈ ts, Spec.Field t) :
    (∀ c, l.head? = some c → isSpace c = false) ∧ (∀ c, l.getLast? = some c → isSpace c = false) ∧
    '\n' ∉ l := by
  have hnl : ∀ t, Spec.Field t → '\n' ∉ t := by
    intro t hf hm
    exact absurd (hf.2 _ hm).1 (by decide)
  induction h with
  | last t =>
    have hf := ht t (by simp)
    exact ⟨fun c hc => (hf.2 c (List.mem_of_head? hc)).1,
      fun c hc => (hf.2 c (List.mem_of_getLast? hc)).1, hnl t hf⟩
  | cons t s ts l hs h ih =>
    have hf := ht t (by simp)
    obtain ⟨_, h2, h3⟩ := ih (fun u hu => ht u (by simp [hu]))
    have hl := line_nonempty h (fun u hu => ht u (by simp [hu]))
    refine ⟨?_, ?_, ?_⟩
    · intro c hc
      obtain ⟨d, t', rfl⟩ := List.exists_cons_of_ne_nil hf.1
      simp only [List.cons_append, List.head?_cons, Option.some.injEq] at hc
      subst hc
      exact (hf.2 d (by simp)).1
    · intro c hc
      refine h2 c ?_
      rw [List.getLast?_append, List.getLast?_cons] at hc
      obtain ⟨d, hd⟩ : ∃ d, l.getLast? = some d := by
        rw [← Option.ne_none_iff_exists']
        simpa using hl
      rw [hd] at hc ⊢
      simpa using hc
    · intro hm
      rcases List.mem_append.1 hm with hm | hm
      · exact hnl t hf hm
      · rcases List.mem_cons.1 hm with hm | hm
        · rcases hs with rfl | rfl | rfl <;> exact absurd hm (by decide)
        · exact h3 hm

theorem strip_id (l : List Char) (h1 : ∀ c, l.head? = some c → isSpace c = false)
    (h2 : ∀ c, l.getLast? = some c → isSpace c = false) : strip l = l := by
  unfold strip
  have e1 : l.dropWhile isSpace = l := by
    cases l with
    | nil => rfl
    | cons c l => rw [List.dropWhile_cons_of_neg]; simp [h1 c rfl]
  rw [e1]
  have e2 : l.reverse.dropWhile isSpace = l.reverse := by
    rcases hr : l.reverse with _ | ⟨c, r⟩
    · rfl
    · rw [List.dropWhile_cons_of_neg]
      have : l.getLast? = some c := by
        rw [← List.head?_reverse, hr]; rfl
      simp [h2 c this]
  rw [e2, List.reverse_reverse]

theorem cut_line {ts : List (List Char)} {l : List Char} (h : Spec.Line ts l)
    (ht : ∀ t ∈ ts, Spec.Field t) : cut isSep l = ts := by
  have hsep : ∀ t, Spec.Field t → ∀ c ∈ t, isSep c = false := by
    intro t hf c hc
    obtain ⟨h1, h2⟩ := hf.2 c hc
    unfold isSep
    simp only [Bool.or_eq_false_iff, decide_eq_false_iff_not]
    refine ⟨⟨h2, ?_⟩, ?_⟩
    · rintro rfl; exact absurd h1 (by decide)
    · rintro rfl; exact absurd h1 (by decide)
  induction h with
  | last t => exact cut_none _ _ (hsep t (ht t (by simp)))
  | cons t s ts l hs h ih =>
    rw [cut_append _ _ _ _ (hsep t (ht t (by simp))), ih (fun u hu => ht u (by simp [hu]))]
    rcases hs with rfl | rfl | rfl <;> decide

theorem load_lines {α : Type} (cast : List Char → Except PErr α) (write : α → List Char)
    (rows : List (List α)) (lines : List (List Char))
    (hw : ∀ r ∈ rows, ∀ a ∈ r, Spec.Field (write a) ∧ cast (write a) = .ok a)
    (h : List.Forall₂ (fun r l => Spec.Line (r.map write) l) rows lines) :
    mapE (fun line => mapE cast (cut isSep (strip line))) lines = .ok rows := by
  induction h with
  | nil => rfl
  | @cons r l rows lines hl h ih =>
    have hf : ∀ t ∈ r.map write, Spec.Field t := by
      intro t ht
      obtain ⟨a, ha, rfl⟩ := List.mem_map.1 ht
      exact (hw r (by simp) a ha).1
    obtain ⟨h1, h2, _⟩ := line_ends hl hf
    have h3 : mapE cast (cut isSep (strip l)) = .ok r := by
      rw [strip_id l h1 h2, cut_line hl hf]
      have hr : ∀ r' : List α, (∀ a ∈ r', cast (write a) = .ok a) → mapE cast (r'.map write) = .ok r' := by
        intro r'
        induction r' with
        | nil => intro _; rfl
        | cons a r' ih' =>
          intro hc
          rw [List.map_cons, mapE, hc a (by simp), ih' (fun b hb => hc b (by simp [hb]))]
      exact hr r (fun a ha => (hw r (by simp) a ha).2)
    rw [mapE, h3, ih (fun r' hr' => hw r' (by simp [hr']))]

/-- C86. A table written with one line per row, the fields separated by single commas, blanks or tabs
(possibly mixed), is read back exactly, after skipping the given number of header lines, whatever
these contain. -/
theorem C86_txt {α : Type} (b : Builtins α) (cast : List Char → Except PErr α) (write : α → List Char)
    (rows : List (List α)) (header lines : List (List Char)) (hhead : ∀ l ∈ header, '\n' ∉ l)
    (hw : ∀ r ∈ rows, ∀ a ∈ r, Spec.Field (write a) ∧ cast (write a) = .ok a)
    (h : List.Forall₂ (fun r l => Spec.Line (r.map write) l) rows lines) :
    loadFromTxt b (.fn cast) header.length (some (Spec.text (header ++ lines))) = .ok rows := by
  have hlines : ∀ l ∈ lines, '\n' ∉ l := by
    intro l hl
    induction h with
    | nil => simp at hl
    | @cons r l' rows lines hl' h ih =>
      rcases List.mem_cons.1 hl with rfl | hl
      · refine (line_ends hl' ?_).2.2
        intro t ht
        obtain ⟨a, ha, rfl⟩ := List.mem_map.1 ht
        exact (hw r (by simp) a ha).1
      · exact ih (fun r' hr' => hw r' (by simp [hr'])) hl
  show mapE _ ((readLines _).drop _) = _
  rw [readLines_text _ (by
    intro l hl
    rcases List.mem_append.1 hl with hl | hl
    · exact hhead l hl
    · exact hlines l hl), List.drop_left]
  exact load_lines cast write rows lines hw h

/-- C86. The newline at the end of the last line may be missing. -/
theorem C86_txt_no_newline {α : Type} (b : Builtins α) (cast : List Char → Except PErr α)
    (write : α → List Char) (rows : List (List α)) (row : List α) (lines : List (List Char))
    (line : List Char) (hw : ∀ r ∈ rows ++ [row], ∀ a ∈ r, Spec.Field (write a) ∧ cast (write a) = .ok a)
    (h : List.Forall₂ (fun r l => Spec.Line (r.map write) l) rows lines)
    (hl : Spec.Line (row.map write) line) :
    loadFromTxt b (.fn cast) 0 (some (Spec.text lines ++ line)) = .ok (rows ++ [row]) := by
  have hall : List.Forall₂ (fun r l => Spec.Line (r.map write) l) (rows ++ [row]) (lines ++ [line]) :=
    List.rel_append h (.cons hl .nil)
  have hmem : ∀ (rs : List (List α)) (ls : List (List Char)),
      (∀ r ∈ rs, ∀ a ∈ r, Spec.Field (write a)) →
      List.Forall₂ (fun r l => Spec.Line (r.map write) l) rs ls → ∀ l ∈ ls, '\n' ∉ l := by
    intro rs ls hf hfa
    induction hfa with
    | nil => simp
    | @cons r l' rows lines hl' h ih =>
      intro l hl
      rcases List.mem_cons.1 hl with rfl | hl
      · refine (line_ends hl' ?_).2.2
        intro t ht
        obtain ⟨a, ha, rfl⟩ := List.mem_map.1 ht
        exact hf r (by simp) a ha
      · exact ih (fun r' hr' => hf r' (by simp [hr'])) l hl
  have h1 := hmem _ _ (fun r hr a ha => (hw r hr a ha).1) hall
  have hne : line ≠ [] := by
    refine line_nonempty hl ?_
    intro t ht
    obtain ⟨a, ha, rfl⟩ := List.mem_map.1 ht
    exact (hw row (by simp) a ha).1
  show mapE _ ((readLines _).drop _) = _
  rw [readLines_text' lines (fun l hl => h1 l (by simp [hl])) line (h1 line (by simp)) hne, List.drop_zero]
  exact load_lines cast write _ _ hw hall

/-- C86. A blank line is not skipped: it becomes a row with one empty field, which `int` and `float`
refuse.  So is every run of two separators. -/
theorem C86_blank_false {α : Type} (b : Builtins α) (cast : List Char → Except PErr α) (e : PErr)
    (hc : cast [] = .error e) :
    loadFromTxt b (.fn cast) 0 (some (Spec.text [[]])) = .error e ∧
    ∀ x, cast ['1'] = .ok x →
      loadFromTxt b (.fn cast) 0 (some (Spec.text [['1', ',', ' ', '2']])) = .error e := by
  have h1 : cut isSep (strip []) = [[]] := by decide
  have h2 : cut isSep (strip ['1', ',', ' ', '2']) = [['1'], [], ['2']] := by decide
  constructor
  · show mapE _ ((readLines _).drop _) = _
    rw [readLines_text _ (by simp)]
    simp only [List.drop_zero, mapE, h1, hc]
  · intro x hx
    show mapE _ ((readLines _).drop _) = _
    rw [readLines_text _ (by decide)]
    simp only [List.drop_zero, mapE, h2, hx, hc]

/-- C86. A type name other than `int`, `float` and `str` is refused, and so is a missing file. -/
theorem C86_txt_errors {α : Type} (b : Builtins α) (h : Nat) :
    (∀ s f, s ∉ ["int", "float", "str"] → loadFromTxt b (.name s) h f = .error .value) ∧
    (∀ cast : List Char → Except PErr α, loadFromTxt b (.fn cast) h none = .error .assertion) := by
  constructor
  · intro s f hs
    simp only [List.mem_cons, List.not_mem_nil, or_false, not_or] at hs
    unfold loadFromTxt retCastFun
    simp only
    rw [if_neg hs.1, if_neg hs.2.1, if_neg hs.2.2]
  · intro _; rfl

/-- C86. The type names stand for the constructors of Python with the same names: a table written with one
line per row is read back exactly as by `int`, `float` and `str`. -/
theorem C86_txt_names {α : Type} (b : Builtins α) (write : α → List Char)
    (rows : List (List α)) (header lines : List (List Char)) (hhead : ∀ l ∈ header, '\n' ∉ l)
    (hf : ∀ r ∈ rows, ∀ a ∈ r, Spec.Field (write a))
    (h : List.Forall₂ (fun r l => Spec.Line (r.map write) l) rows lines) :
    let file := some (Spec.text (header ++ lines))
    ((∀ r ∈ rows, ∀ a ∈ r, b.int (write a) = .ok a) → loadFromTxt b (.name "int") header.length file = .ok rows) ∧
    ((∀ r ∈ rows, ∀ a ∈ r, b.float (write a) = .ok a) →
      loadFromTxt b (.name "float") header.length file = .ok rows) ∧
    ((∀ r ∈ rows, ∀ a ∈ r, b.str (write a) = .ok a) → loadFromTxt b (.name "str") header.length file = .ok rows) := by
  refine ⟨fun hc => ?_, fun hc => ?_, fun hc => ?_⟩
  · exact C86_txt b b.int write rows header lines hhead (fun r hr a ha => ⟨hf r hr a ha, hc r hr a ha⟩) h
  · exact C86_txt b b.float write rows header lines hhead (fun r hr a ha => ⟨hf r hr a ha, hc r hr a ha⟩) h
  · exact C86_txt b b.str write rows header lines hhead (fun r hr a ha => ⟨hf r hr a ha, hc r hr a ha⟩) h

/-! ## Pickles -/

theorem mapE_total {α β : Type} (f : α → Except PErr β) (l : List α) (h : ∀ a ∈ l, ∃ b, f a = .ok b) :
    ∃ bs, mapE f l = .ok bs := by
  induction l with
  | nil => exact ⟨[], rfl⟩
  | cons a l ih =>
    obtain ⟨b, hb⟩ := h a (by simp)
    obtain ⟨bs, hbs⟩ := ih (fun c hc => h c (by simp [hc]))
    exact ⟨b :: bs, by rw [mapE, hb, hbs]⟩

theorem mapE_lookup {V : Type} (d : List (String × V)) (ks : List String) (ps : List (String × V)) :
    mapE (fun k => (lookup d k).map fun v => (k, v)) ks = .ok ps →
    ps.map Prod.fst = ks ∧ ∀ p ∈ ps, lookup d p.1 = .ok p.2 := by
  induction ks generalizing ps with
  | nil => intro h; cases h; simp
  | cons k ks ih =>
    intro h
    rw [mapE] at h
    rcases hk : lookup d k with e | v
    · rw [hk] at h; cases h
    · rw [hk] at h
      simp only [Except.map] at h
      rcases hm : mapE (fun k => (lookup d k).map fun v => (k, v)) ks with e | qs
      · simp only [Except.map] at hm
        rw [hm] at h; cases h
      · obtain ⟨h1, h2⟩ := ih qs hm
        simp only [Except.map] at hm
        rw [hm] at h
        cases h
        refine ⟨by simp [h1], ?_⟩
        intro p hp
        rcases List.mem_cons.1 hp with rfl | hp
        · exact hk
        · exact h2 p hp

/-- C86. `load_from_pickle` answers the whole object without keys, the entry of one key, or a
dictionary with exactly the asked keys and their entries; it raises when a key is missing. -/
theorem C86_pickle {V : Type} (d : List (String × V)) (hd : (d.map Prod.fst).Nodup) :
    loadFromPickle d .none = .ok (.all d) ∧
    (∀ k v, (k, v) ∈ d → loadFromPickle d (.one k) = .ok (.entry v)) ∧
    (∀ k, k ∉ d.map Prod.fst → loadFromPickle d (.one k) = .error .key) ∧
    (∀ ks, (∀ k ∈ ks, k ∈ d.map Prod.fst) → ∃ m, loadFromPickle d (.many ks) = .ok (.sub m) ∧
      ∀ k v, Dict.get? m k = some v ↔ k ∈ ks ∧ (k, v) ∈ d) ∧
    (∀ ks, (∃ k ∈ ks, k ∉ d.map Prod.fst) → loadFromPickle d (.many ks) = .error .key) := by
  have hmiss : ∀ k, k ∉ d.map Prod.fst → lookup d k = .error .key := by
    intro k hk
    unfold lookup
    rw [List.find?_eq_none.2]
    rintro ⟨a, b⟩ hp
    simp only [decide_eq_true_eq]
    rintro rfl
    exact hk (List.mem_map.2 ⟨_, hp, rfl⟩)
  have hfound : ∀ k v, (k, v) ∈ d → lookup d k = .ok v := by
    intro k v hkv
    unfold lookup
    rcases hf : d.find? (fun p => p.1 = k) with _ | ⟨k', v'⟩
    · rw [List.find?_eq_none] at hf
      simpa using hf _ hkv
    · have h1 := List.find?_some hf
      have h2 := List.mem_of_find?_eq_some hf
      simp only [decide_eq_true_eq] at h1
      subst h1
      have := List.inj_on_of_nodup_map hd h2 hkv rfl
      cases this
      rw [hf]
  have hlook : ∀ k v, lookup d k = .ok v → (k, v) ∈ d := by
    intro k v h
    unfold lookup at h
    rcases hf : d.find? (fun p => p.1 = k) with _ | ⟨k', v'⟩
    · rw [hf] at h; cases h
    · rw [hf] at h
      have h1 := List.find?_some hf
      have h2 := List.mem_of_find?_eq_some hf
      simp only [decide_eq_true_eq] at h1
      subst h1
      cases h
      exact h2
  refine ⟨rfl, ?_, ?_, ?_, ?_⟩
  · intro k v h
    show (lookup d k).map Loaded.entry = _
    rw [hfound k v h]
    rfl
  · intro k h
    show (lookup d k).map Loaded.entry = _
    rw [hmiss k h]
    rfl
  · intro ks hks
    unfold loadFromPickle
    simp only
    rcases hm : mapE (fun k => (lookup d k).map fun v => (k, v)) ks with e | ps
    · obtain ⟨bs, hbs⟩ := mapE_total (fun k => (lookup d k).map fun v => (k, v)) ks (by
        intro k hk
        obtain ⟨⟨k', v⟩, hkv, hk'⟩ := List.mem_map.1 (hks k hk)
        simp only at hk'
        subst hk'
        exact ⟨_, by rw [hfound _ _ hkv]; rfl⟩)
      rw [hbs] at hm
      cases hm
    · obtain ⟨h1, h2⟩ := mapE_lookup d ks ps hm
      refine ⟨_, rfl, ?_⟩
      have hfold : ∀ (qs : List (String × V)) (m0 : Dict String V) (k : String),
          (∀ p ∈ qs, lookup d p.1 = .ok p.2) →
          (k ∈ qs.map Prod.fst → ∃ v, Dict.get? (qs.foldl (fun acc p => Dict.set acc p.1 p.2) m0) k = some v ∧
            lookup d k = .ok v) ∧
          (k ∉ qs.map Prod.fst →
            Dict.get? (qs.foldl (fun acc p => Dict.set acc p.1 p.2) m0) k = Dict.get? m0 k) := by
        intro qs
        induction qs with
        | nil => intro m0 k _; simp
        | cons q qs ih =>
          intro m0 k hq
          obtain ⟨i1, i2⟩ := ih (Dict.set m0 q.1 q.2) k (fun p hp => hq p (by simp [hp]))
          simp only [List.foldl_cons, List.map_cons, List.mem_cons]
          constructor
          · intro hk
            by_cases hk2 : k ∈ qs.map Prod.fst
            · exact i1 hk2
            · rcases hk with rfl | hk
              · refine ⟨q.2, ?_, hq q (by simp)⟩
                rw [i2 hk2, Dict.get?_set, if_pos rfl]
              · exact absurd hk hk2
          · intro hk
            rw [not_or] at hk
            rw [i2 hk.2, Dict.get?_set, if_neg (Ne.symm hk.1)]
      intro k v
      obtain ⟨f1, f2⟩ := hfold ps [] k h2
      rw [h1] at f1 f2
      by_cases hk : k ∈ ks
      · obtain ⟨v', g1, g2⟩ := f1 hk
        rw [g1]
        constructor
        · intro h
          cases h
          exact ⟨hk, hlook k _ g2⟩
        · rintro ⟨_, h⟩
          rw [hfound k v h] at g2
          cases g2
          rfl
      · rw [f2 hk]
        constructor
        · intro h; cases h
        · rintro ⟨h, _⟩; exact absurd h hk
  · rintro ks ⟨k, hk, hkd⟩
    have : mapE (fun k => (lookup d k).map fun v => (k, v)) ks = .error .key := by
      induction ks with
      | nil => simp at hk
      | cons q ks ih =>
        rw [mapE]
        by_cases hq : q ∈ d.map Prod.fst
        · rcases List.mem_cons.1 hk with rfl | hk
          · exact absurd hq hkd
          · rw [ih hk]
            rcases hl : lookup d q with e | v
            · unfold lookup at hl
              split at hl
              · cases hl
              · cases hl; rfl
            · rfl
        · rw [hmiss q hq]; rfl
    unfold loadFromPickle
    simp only [this]
    rfl

/-! ## Examples -/

/-- one digit -/
def exCast (s : List Char) : Except PErr Nat :=
  match s with
  | [c] => if c.isDigit then .ok (c.toNat - 48) else .error .value
  | _ => .error .value

example : loadFromTxt ⟨exCast, exCast, exCast⟩ (.fn exCast) 1 (some "a,b\n1,2\t3\n4 5\n".toList) =
    .ok [[1, 2, 3], [4, 5]] := by decide +kernel

example : Spec.Line [['1'], ['2'], ['3']] ['1', ',', '2', '\t', '3'] :=
  .cons ['1'] ',' _ _ (.inl rfl) (.cons ['2'] '\t' _ _ (.inr (.inr rfl)) (.last ['3']))

example : Spec.Field ['1'] ∧ exCast ['1'] = .ok 1 := by
  constructor
  · exact ⟨by simp, by decide⟩
  · decide

end DHG
