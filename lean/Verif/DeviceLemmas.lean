import Verif.Device

/-!
# Rules for the device model
-/

set_option linter.unusedSectionVars false
set_option autoImplicit false

namespace DHG
namespace Device

/-- the names that matter -/
abbrev KeyPred := Raw → Option String × String → Prop

/-- the cached tensors with one of these names are on the device of the structure -/
def Good (P : KeyPred) (s : St) : Prop :=
  ∀ k d, P s.raw k → s.cache.get? k = some d → d = s.raw.device

/-- partial correctness: if the call returns, its value satisfies `Q` -/
def Sf {α : Type} (P : KeyPred) (r : Raw) (m : PyM St α) (Q : α → Prop) : Prop :=
  ∀ s, s.raw = r → Good P s → (∀ a, (m s).1 = .ok a → Q a) ∧ Good P (m s).2 ∧ (m s).2.raw = r

/-- total correctness: the call returns and its value satisfies `Q` -/
def Tot {α : Type} (P : KeyPred) (r : Raw) (m : PyM St α) (Q : α → Prop) : Prop :=
  ∀ s, s.raw = r → Good P s → ∃ a, (m s).1 = .ok a ∧ Q a ∧ Good P (m s).2 ∧ (m s).2.raw = r

variable {P : KeyPred} {r : Raw} {α β : Type}

theorem good_fresh (r : Raw) : Good P { raw := r, cache := [] } := by
  intro k d _ h; simp at h

namespace Sf

theorem pure' {a : α} {Q : α → Prop} (h : Q a) : Sf P r (pure a) Q := by
  intro s hs hg
  exact ⟨fun b hb => by cases hb; exact h, hg, hs⟩

theorem raise' {Q : α → Prop} (e : Err) : Sf P r (PyM.raise e : PyM St α) Q := by
  intro s hs hg
  exact ⟨fun b hb => (nomatch hb), hg, hs⟩

theorem readRaw' (f : Raw → α) {Q : α → Prop} (h : Q (f r)) : Sf P r (readRaw f) Q := by
  intro s hs hg
  refine ⟨fun b hb => ?_, hg, hs⟩
  cases hb; rw [hs]; exact h

theorem here' : Sf P r here (· = r.device) := readRaw' _ rfl

theorem bind' {m : PyM St α} {f : α → PyM St β} {Q : α → Prop} {R : β → Prop} (hm : Sf P r m Q)
    (hf : ∀ a, Q a → Sf P r (f a) R) : Sf P r (m >>= f) R := by
  intro s hs hg
  obtain ⟨h1, h2, h3⟩ := hm s hs hg
  rw [PyM.bind_apply]
  rcases hms : m s with ⟨_ | a, s'⟩ <;> rw [hms] at h1 h2 h3
  · exact ⟨fun b hb => (nomatch hb), h2, h3⟩
  · exact hf a (h1 a rfl) s' h3 h2

theorem weaken {m : PyM St α} {Q R : α → Prop} (hm : Sf P r m Q) (h : ∀ a, Q a → R a) : Sf P r m R :=
  fun s hs hg => ⟨fun a ha => h a ((hm s hs hg).1 a ha), (hm s hs hg).2⟩

theorem memo' {k : Option String × String} {m : PyM St Dev} (hm : Sf P r m (· = r.device)) :
    Sf P r (memo k m) (fun d => P r k → d = r.device) := by
  intro s hs hg
  unfold memo
  cases hk : s.cache.get? k with
  | some v =>
    refine ⟨fun a ha hp => ?_, hg, hs⟩
    cases ha
    rw [← hs] at hp ⊢
    exact hg k _ hp hk
  | none =>
    obtain ⟨h1, h2, h3⟩ := hm s hs hg
    rcases hms : m s with ⟨_ | a, s'⟩ <;> rw [hms] at h1 h2 h3
    · exact ⟨fun b hb => (nomatch hb), h2, h3⟩
    · refine ⟨fun b hb _ => by cases hb; exact h1 a rfl, ?_, h3⟩
      intro k' d hp hd
      simp only [Dict.get?_set] at hd
      split at hd
      · cases hd
        show a = s'.raw.device
        rw [h3]; exact h1 a rfl
      · exact h2 k' d hp hd

theorem memo_in {k : Option String × String} {m : PyM St Dev} (hk : P r k)
    (hm : Sf P r m (· = r.device)) : Sf P r (memo k m) (· = r.device) :=
  (memo' hm).weaken fun _ h => h hk

theorem memo_out {k : Option String × String} {m : PyM St Dev} {Q : Dev → Prop} (hk : ¬ P r k)
    (hm : Sf P r m Q) : Sf P r (memo k m) (fun _ => True) := by
  intro s hs hg
  unfold memo
  cases hk' : s.cache.get? k with
  | some v => exact ⟨fun a _ => trivial, hg, hs⟩
  | none =>
    obtain ⟨h1, h2, h3⟩ := hm s hs hg
    rcases hms : m s with ⟨_ | a, s'⟩ <;> rw [hms] at h1 h2 h3
    · exact ⟨fun b hb => trivial, h2, h3⟩
    · refine ⟨fun b hb => trivial, ?_, h3⟩
      intro k' d hp hd
      simp only [Dict.get?_set] at hd
      split at hd
      · rename_i he
        subst he
        rw [show ({ s' with cache := s'.cache.set k a } : St).raw = r from h3] at hp
        exact absurd hp hk
      · exact h2 k' d hp hd

theorem joined' {d : Dev} {ds : List Dev} : Sf P r (joined (d :: ds)) (fun x => x = d ∧ ∀ y ∈ ds, y = d) := by
  show Sf P r (if ds.all (· == d) then pure d else PyM.raise .runtime) _
  split
  · rename_i h
    refine pure' ⟨rfl, fun y hy => ?_⟩
    have := List.all_eq_true.mp h y hy
    simpa using this
  · exact raise' _

theorem joined_all {ds : List Dev} (h : ∀ d ∈ ds, d = r.device) : Sf P r (joined ds) (· = r.device) := by
  cases ds with
  | nil => exact raise' _
  | cons d ds => exact joined'.weaken fun _ hx => hx.1.trans (h d (by simp))

theorem joined_any {ds : List Dev} : Sf P r (joined ds) (fun _ => True) := by
  cases ds with
  | nil => exact raise' _
  | cons d ds => exact joined'.weaken fun _ _ => trivial

theorem assert' {b : Bool} : Sf P r (PyM.assert b) (fun _ => b = true) := by
  cases b
  · exact raise' _
  · exact pure' rfl

theorem collect' {xs : List β} {f : β → PyM St α} {Q : α → Prop} (hf : ∀ x ∈ xs, Sf P r (f x) Q) :
    Sf P r (PyM.collect xs f) (fun l => ∀ a ∈ l, Q a) := by
  induction xs with
  | nil => exact pure' (by simp)
  | cons x xs ih =>
    unfold PyM.collect
    refine bind' (hf x (by simp)) fun a ha => ?_
    refine bind' (ih fun y hy => hf y (by simp [hy])) fun as has => ?_
    refine pure' ?_
    intro b hb
    rcases List.mem_cons.mp hb with rfl | hb
    · exact ha
    · exact has b hb

theorem onTmp' {m : PyM St Dev} {Q : Dev → Prop} (hm : Sf P r m Q) : Sf P r (Graph.onTmp m) Q := by
  intro s hs hg
  refine ⟨fun a ha => ?_, hg, hs⟩
  exact (hm { raw := s.raw, cache := [] } hs (good_fresh _)).1 a ha

theorem ite' {c : Prop} [Decidable c] {m n : PyM St α} {Q : α → Prop} (hm : c → Sf P r m Q)
    (hn : ¬ c → Sf P r n Q) : Sf P r (if c then m else n) Q := by
  split
  · exact hm ‹_›
  · exact hn ‹_›

end Sf

namespace Tot

theorem sf {m : PyM St α} {Q : α → Prop} (h : Tot P r m Q) : Sf P r m Q := by
  intro s hs hg
  obtain ⟨a, h1, h2, h3⟩ := h s hs hg
  refine ⟨fun b hb => ?_, h3⟩
  rw [h1] at hb; cases hb; exact h2

theorem pure' {a : α} {Q : α → Prop} (h : Q a) : Tot P r (pure a) Q :=
  fun _ hs hg => ⟨a, rfl, h, hg, hs⟩

theorem readRaw' (f : Raw → α) {Q : α → Prop} (h : Q (f r)) : Tot P r (readRaw f) Q :=
  fun s hs hg => ⟨f s.raw, rfl, by rw [hs]; exact h, hg, hs⟩

theorem here' : Tot P r here (· = r.device) := readRaw' _ rfl

theorem bind' {m : PyM St α} {f : α → PyM St β} {Q : α → Prop} {R : β → Prop} (hm : Tot P r m Q)
    (hf : ∀ a, Q a → Tot P r (f a) R) : Tot P r (m >>= f) R := by
  intro s hs hg
  obtain ⟨a, h1, h2, h3, h4⟩ := hm s hs hg
  rw [PyM.bind_apply]
  rcases hms : m s with ⟨_ | a', s'⟩ <;> rw [hms] at h1 h3 h4
  · cases h1
  · cases h1
    exact hf a h2 s' h4 h3

theorem weaken {m : PyM St α} {Q R : α → Prop} (hm : Tot P r m Q) (h : ∀ a, Q a → R a) : Tot P r m R := by
  intro s hs hg
  obtain ⟨a, h1, h2, h3⟩ := hm s hs hg
  exact ⟨a, h1, h a h2, h3⟩

theorem memo_in {k : Option String × String} {m : PyM St Dev} (hk : P r k)
    (hm : Tot P r m (· = r.device)) : Tot P r (memo k m) (· = r.device) := by
  intro s hs hg
  obtain ⟨h1, h2⟩ := Sf.memo_in hk hm.sf s hs hg
  suffices h : ∃ a, (memo k m s).1 = .ok a from by
    obtain ⟨a, ha⟩ := h
    exact ⟨a, ha, h1 a ha, h2⟩
  unfold memo
  cases s.cache.get? k with
  | some v => exact ⟨v, rfl⟩
  | none =>
    obtain ⟨a, h1, -⟩ := hm s hs hg
    rcases hms : m s with ⟨_ | a', s'⟩ <;> rw [hms] at h1
    · cases h1
    · exact ⟨a', rfl⟩

theorem memo_out {k : Option String × String} {m : PyM St Dev} {Q : Dev → Prop} (hk : ¬ P r k)
    (hm : Tot P r m Q) : Tot P r (memo k m) (fun _ => True) := by
  intro s hs hg
  obtain ⟨h1, h2⟩ := Sf.memo_out hk hm.sf s hs hg
  suffices h : ∃ a, (memo k m s).1 = .ok a from by
    obtain ⟨a, ha⟩ := h
    exact ⟨a, ha, h1 a ha, h2⟩
  unfold memo
  cases s.cache.get? k with
  | some v => exact ⟨v, rfl⟩
  | none =>
    obtain ⟨a, h1, -⟩ := hm s hs hg
    rcases hms : m s with ⟨_ | a', s'⟩ <;> rw [hms] at h1
    · cases h1
    · exact ⟨a', rfl⟩

theorem joined' {ds : List Dev} (hne : ds ≠ []) (h : ∀ d ∈ ds, d = r.device) :
    Tot P r (joined ds) (· = r.device) := by
  cases ds with
  | nil => exact absurd rfl hne
  | cons d ds =>
    have hd := h d (by simp)
    have : ds.all (· == d) = true := by
      rw [List.all_eq_true]
      intro x hx
      simp [hd, h x (by simp [hx])]
    show Tot P r (if ds.all (· == d) then pure d else PyM.raise .runtime) _
    rw [if_pos this]
    exact pure' hd

theorem collect' {xs : List β} {f : β → PyM St α} {Q : α → Prop} (hf : ∀ x ∈ xs, Tot P r (f x) Q) :
    Tot P r (PyM.collect xs f) (fun l => l.length = xs.length ∧ ∀ a ∈ l, Q a) := by
  induction xs with
  | nil => exact pure' (by simp)
  | cons x xs ih =>
    unfold PyM.collect
    refine bind' (hf x (by simp)) fun a ha => ?_
    refine bind' (ih fun y hy => hf y (by simp [hy])) fun as has => ?_
    refine pure' ⟨by simp [has.1], ?_⟩
    intro b hb
    rcases List.mem_cons.mp hb with rfl | hb
    · exact ha
    · exact has.2 b hb

theorem onTmp' {m : PyM St Dev} {Q : Dev → Prop} (hm : Tot P r m Q) : Tot P r (Graph.onTmp m) Q := by
  intro s hs hg
  obtain ⟨a, h1, h2, -⟩ := hm { raw := s.raw, cache := [] } hs (good_fresh _)
  exact ⟨a, h1, h2, hg, hs⟩

end Tot

/-! ### moving -/

theorem get?_moveKey (d : Dev) (c : Dict (Option String × String) Dev) (k k' : Option String × String) :
    (moveKey d c k).get? k' = if k = k' ∧ (c.get? k).isSome then some d else c.get? k' := by
  unfold moveKey
  cases h : c.get? k with
  | none => simp
  | some x =>
    simp only [Dict.get?_set, Option.isSome_some, and_true]

theorem get?_moveKeys (d : Dev) (ks : List (Option String × String)) (c : Dict (Option String × String) Dev)
    (k' : Option String × String) :
    (ks.foldl (moveKey d) c).get? k' =
      if k' ∈ ks ∧ (c.get? k').isSome then some d else c.get? k' := by
  induction ks generalizing c with
  | nil => simp
  | cons k ks ih =>
    rw [List.foldl_cons, ih, get?_moveKey]
    by_cases hk : k = k'
    · subst hk
      by_cases hc : (c.get? k).isSome
      · simp [hc]
      · simp [hc]
    · simp [hk, Ne.symm hk]

/-- after the move the listed names are on the new device -/
theorem good_move {s : St} {d : Dev} {ks : List (Option String × String)} {r : Raw}
    (h : ∀ k, P r k → k ∈ ks) (hr : r.device = d) :
    Good P { raw := r, cache := ks.foldl (moveKey d) s.cache } := by
  intro k d' hp hd
  simp only [get?_moveKeys] at hd
  split at hd
  · cases hd; exact hr.symm
  · rename_i hc
    have := h k hp
    simp [this, hd] at hc

end Device
end DHG
