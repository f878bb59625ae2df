import Verif.Props.GraphMessages

/-!
# Renaming vertices (C48)
-/

set_option linter.unusedSectionVars false
set_option autoImplicit false

namespace DHG

namespace Spec
variable {K : Type}

/-- `π` permutes the vertices `0..n-1` and keeps other ids out of range -/
structure Renaming (n : Nat) (π : Equiv.Perm Int) : Prop where
  nonneg : ∀ x, 0 ≤ π x ↔ 0 ≤ x
  lt : ∀ x, π x < (n : Int) ↔ x < (n : Int)

/-- no negative vertex id is passed to `add_edges` in the history -/
def NonNegHistory [Field K] [LinearOrder K] (h : List (Graph.Step K)) : Prop :=
  ∀ arg op, .op (.addEdges arg op) ∈ h → Graph.NonNeg arg

/-- rename the vertices of an edge argument -/
def renameArg (π : Equiv.Perm Int) : EArg K → EArg K
  | .single a b w => .single (π a) (π b) w
  | .many es ws => .many (es.map fun e => (π e.1, π e.2)) ws

/-- rename the vertices in a history -/
def renameStep (π : Equiv.Perm Int) : Graph.Step K → Graph.Step K
  | .op (.addEdges arg op) => .op (.addEdges (renameArg π arg) op)
  | .op (.removeEdges arg) => .op (.removeEdges (renameArg π arg))
  | s => s

end Spec

namespace Props

open Graph Finset

variable {K : Type} [Field K] [LinearOrder K] [PyReal K]

section Abs
variable {n : Nat} {π : Equiv.Perm Int}

/-- two abstract states are the same up to renaming -/
def SameUpTo (π : Equiv.Perm Int) (s s' : Spec.GState K) : Prop :=
  (∀ a b, s'.map (π a) (π b) = s.map a b) ∧ s'.extra = s.extra

theorem put_rename {m m' : Spec.WMap K} (h : ∀ a b, m' (π a) (π b) = m a b) (op : MergeOp) (x y : Int)
    (w : K) (a b : Int) : Spec.put m' op (π x) (π y) w (π a) (π b) = Spec.put m op x y w a b := by
  unfold Spec.put
  simp only [h, π.injective.eq_iff]

theorem erase_rename {m m' : Spec.WMap K} (h : ∀ a b, m' (π a) (π b) = m a b) (x y : Int)
    (a b : Int) : Spec.erase m' (π x) (π y) (π a) (π b) = Spec.erase m x y a b := by
  unfold Spec.erase
  simp only [h, π.injective.eq_iff]

theorem foldl_put_rename (op : MergeOp) (l : List (Int × Int × K)) :
    ∀ {m m' : Spec.WMap K}, (∀ a b, m' (π a) (π b) = m a b) → ∀ a b,
    (l.map fun e => (π e.1, π e.2.1, e.2.2)).foldl (fun m e => Spec.put m op e.1 e.2.1 e.2.2) m' (π a) (π b) =
      l.foldl (fun m e => Spec.put m op e.1 e.2.1 e.2.2) m a b := by
  induction l with
  | nil => intro m m' h a b; exact h a b
  | cons e l ih =>
    intro m m' h a b
    rw [List.map_cons, List.foldl_cons, List.foldl_cons]
    exact ih (put_rename h op _ _ _) a b

theorem foldl_erase_rename (l : List (Int × Int)) :
    ∀ {m m' : Spec.WMap K}, (∀ a b, m' (π a) (π b) = m a b) → ∀ a b,
    (l.map fun e => (π e.1, π e.2)).foldl (fun m e => Spec.erase m e.1 e.2) m' (π a) (π b) =
      l.foldl (fun m e => Spec.erase m e.1 e.2) m a b := by
  induction l with
  | nil => intro m m' h a b; exact h a b
  | cons e l ih =>
    intro m m' h a b
    rw [List.map_cons, List.foldl_cons, List.foldl_cons]
    exact ih (erase_rename h _ _) a b

theorem named_rename (arg : EArg K) :
    Spec.named (Spec.renameArg π arg) = (Spec.named arg).map fun e => (π e.1, π e.2) := by
  cases arg <;> rfl

theorem weighted_rename (arg : EArg K) :
    Spec.weighted (Spec.renameArg π arg) =
      (Spec.weighted arg).map fun l => l.map fun e => (π e.1, π e.2.1, e.2.2) := by
  cases arg with
  | single a b w => rfl
  | many es ws =>
    cases ws with
    | none => simp [Spec.renameArg, Spec.weighted]
    | scalar x => rfl
    | list ws =>
      simp only [Spec.renameArg, Spec.weighted, Option.map_some, List.zip_map_left, List.map_map]
      rfl

theorem named_lt (hπ : Spec.Renaming n π) (arg : EArg K) :
    (∀ e ∈ Spec.named (Spec.renameArg π arg), e.1 < (n : Int) ∧ e.2 < (n : Int)) ↔
      ∀ e ∈ Spec.named arg, e.1 < (n : Int) ∧ e.2 < (n : Int) := by
  rw [named_rename]
  constructor
  · intro h e he
    have := h _ (List.mem_map_of_mem he)
    exact ⟨(hπ.lt _).1 this.1, (hπ.lt _).1 this.2⟩
  · intro h e he
    obtain ⟨e', he', rfl⟩ := List.mem_map.1 he
    have := h _ he'
    exact ⟨(hπ.lt _).2 this.1, (hπ.lt _).2 this.2⟩

theorem add_rename (hπ : Spec.Renaming n π) {m m' : Spec.WMap K} (h : ∀ a b, m' (π a) (π b) = m a b)
    (arg : EArg K) (op : MergeOp) (a b : Int) :
    Spec.add n m' (Spec.renameArg π arg) op (π a) (π b) = Spec.add n m arg op a b := by
  unfold Spec.add
  by_cases hc : (∀ e ∈ Spec.named arg, e.1 < (n : Int) ∧ e.2 < (n : Int)) ∧ op ≠ .other
  · rw [if_pos hc, if_pos ⟨(named_lt hπ arg).2 hc.1, hc.2⟩, weighted_rename]
    cases Spec.weighted arg with
    | none => exact h a b
    | some l => exact foldl_put_rename op l h a b
  · rw [if_neg hc, if_neg fun h' => hc ⟨(named_lt hπ arg).1 h'.1, h'.2⟩]
    exact h a b

theorem remove_rename (hπ : Spec.Renaming n π) {m m' : Spec.WMap K} (h : ∀ a b, m' (π a) (π b) = m a b)
    (arg : EArg K) (a b : Int) :
    Spec.remove n m' (Spec.renameArg π arg) (π a) (π b) = Spec.remove n m arg a b := by
  unfold Spec.remove
  by_cases hc : ∀ e ∈ Spec.named arg, e.1 < (n : Int) ∧ e.2 < (n : Int)
  · rw [if_pos hc, if_pos ((named_lt hπ arg).2 hc), named_rename]
    exact foldl_erase_rename _ h a b
  · rw [if_neg hc, if_neg fun h' => hc ((named_lt hπ arg).1 h')]
    exact h a b

theorem step_rename (hπ : Spec.Renaming n π) {s s' : Spec.GState K} (h : SameUpTo π s s')
    (hist : List (Step K)) :
    SameUpTo π (Spec.run n s hist) (Spec.run n s' (hist.map (Spec.renameStep π))) := by
  induction hist generalizing s s' with
  | nil => exact h
  | cons st hist ih =>
    unfold Spec.run
    rw [List.map_cons, List.foldl_cons, List.foldl_cons]
    apply ih
    cases st with
    | read q => exact h
    | op o =>
      cases o with
      | addEdges arg op => exact ⟨add_rename hπ h.1 arg op, h.2⟩
      | removeEdges arg => exact ⟨remove_rename hπ h.1 arg, h.2⟩
      | addExtraSelfloop => exact ⟨h.1, rfl⟩
      | removeExtraSelfloop => exact ⟨h.1, rfl⟩
      | removeSelfloop =>
        refine ⟨?_, rfl⟩
        intro a b
        show (if π a = π b then none else s'.map (π a) (π b)) = if a = b then none else s.map a b
        rw [h.1]; simp only [π.injective.eq_iff]
      | clear => exact ⟨fun _ _ => rfl, rfl⟩

theorem new_rename (hπ : Spec.Renaming n π) (arg : Option (EArg K)) (extra : Bool) (op : MergeOp) :
    SameUpTo π (Spec.new n arg extra op) (Spec.new n (arg.map (Spec.renameArg π)) extra op) := by
  refine ⟨?_, rfl⟩
  intro a b
  cases arg with
  | none => rfl
  | some arg => exact add_rename hπ (fun _ _ => rfl) arg op a b

end Abs

/-- vertices as natural numbers -/
def ren (π : Equiv.Perm Int) (i : Nat) : Nat := (π i).toNat

theorem ren_cast {n : Nat} {π : Equiv.Perm Int} (hπ : Spec.Renaming n π) (i : Nat) :
    ((ren π i : Nat) : Int) = π i := by
  have := (hπ.nonneg i).2 (by omega)
  unfold ren; omega

theorem ren_lt {n : Nat} {π : Equiv.Perm Int} (hπ : Spec.Renaming n π) (i : Nat) : ren π i < n ↔ i < n := by
  have h := ren_cast hπ i
  have := hπ.lt i
  omega

theorem ren_inj {n : Nat} {π : Equiv.Perm Int} (hπ : Spec.Renaming n π) {i j : Nat} :
    ren π i = ren π j ↔ i = j := by
  constructor
  · intro h
    have h1 := ren_cast hπ i
    have h2 := ren_cast hπ j
    rw [h] at h1
    have := π.injective (h1.symm.trans h2)
    omega
  · rintro rfl; rfl

theorem sum_ren {n : Nat} {π : Equiv.Perm Int} (hπ : Spec.Renaming n π) (f : Nat → K) :
    ∑ j ∈ range n, f (ren π j) = ∑ j ∈ range n, f j := by
  have hinj : Set.InjOn (ren π) (range n : Set Nat) := fun a _ b _ h => (ren_inj hπ).1 h
  have him : (range n).image (ren π) = range n := by
    apply Finset.eq_of_subset_of_card_le
    · intro x hx
      obtain ⟨y, hy, rfl⟩ := mem_image.1 hx
      exact mem_range.2 ((ren_lt hπ y).2 (mem_range.1 hy))
    · rw [card_image_of_injOn hinj]
  conv_rhs => rw [← him]
  rw [sum_image hinj]

/-- renamed copies of a graph: built and changed by the same calls with renamed vertices -/
structure Renamed (n : Nat) (π : Equiv.Perm Int) (g g' : GSt K) : Prop where
  map : ∀ a b, absR g'.raw (π a) (π b) = absR g.raw a b
  extra : g'.raw.extra = g.raw.extra
  num : g.raw.numV = n
  num' : g'.raw.numV = n

theorem renamed_of_history {n : Nat} {π : Equiv.Perm Int} (hπ : Spec.Renaming n π)
    {arg : Option (EArg K)} {extra : Bool} {op : MergeOp} {g g' : GSt K}
    (hg : Graph.new n arg extra op = .ok g)
    (hg' : Graph.new n (arg.map (Spec.renameArg π)) extra op = .ok g') (h : List (Step K)) :
    Renamed n π (run g h) (run g' (h.map (Spec.renameStep π))) := by
  have hb : Built AnyArg g := .new hg fun _ _ => trivial
  have hb' : Built AnyArg g' := .new hg' fun _ _ => trivial
  obtain ⟨h1, h2, _⟩ := absS_new hg
  obtain ⟨h1', h2', _⟩ := absS_new hg'
  obtain ⟨h3, h4⟩ := absS_run hb.inv.1 hb.inv.2 h
  obtain ⟨h3', h4'⟩ := absS_run hb'.inv.1 hb'.inv.2 (h.map (Spec.renameStep π))
  rw [Int.toNat_natCast] at h1 h1' h2 h2'
  rw [h1, h2] at h3
  rw [h1', h2'] at h3'
  have := step_rename hπ (new_rename hπ arg extra op) h
  rw [← h3, ← h3'] at this
  exact ⟨this.1, this.2, h4.trans h2, h4'.trans h2'⟩

theorem Renamed.wt {n : Nat} {π : Equiv.Perm Int} (hπ : Spec.Renaming n π) {g g' : GSt K}
    (hb : Built NonNeg g) (hb' : Built NonNeg g') (h : Renamed n π g g') (i j : Nat) :
    Spec.wt (Spec.listing g') (ren π i : Nat) (ren π j : Nat) = Spec.wt (Spec.listing g) i j := by
  rw [listing_lst hb, listing_lst hb', wt_absR hb.inv.1, wt_absR hb'.inv.1, ren_cast hπ, ren_cast hπ, h.map,
    h.num, h.num', h.extra]
  simp only [ren_inj hπ, ren_lt hπ]

theorem nonNeg_rename {n : Nat} {π : Equiv.Perm Int} (hπ : Spec.Renaming n π) {arg : EArg K}
    (h : NonNeg arg) : NonNeg (Spec.renameArg π arg) := by
  cases arg with
  | single a b w => exact ⟨(hπ.nonneg _).2 h.1, (hπ.nonneg _).2 h.2⟩
  | many es ws =>
    intro e he
    obtain ⟨e', he', rfl⟩ := List.mem_map.1 he
    exact ⟨(hπ.nonneg _).2 (h e' he').1, (hπ.nonneg _).2 (h e' he').2⟩

theorem built_run_nonNeg {g : GSt K} (hg : Built NonNeg g) {h : List (Step K)}
    (hh : Spec.NonNegHistory h) : Built NonNeg (run g h) := by
  induction h generalizing g with
  | nil => exact hg
  | cons st h ih =>
    have : Built NonNeg (step g st) := by
      cases st with
      | op o =>
        refine .op o hg ?_
        rintro a op rfl
        exact hh a op List.mem_cons_self
      | read q => exact .read q hg
    exact ih this fun arg op hm => hh arg op (List.mem_cons_of_mem _ hm)

theorem nonNegHistory_rename {n : Nat} {π : Equiv.Perm Int} (hπ : Spec.Renaming n π) {h : List (Step K)}
    (hh : Spec.NonNegHistory h) : Spec.NonNegHistory (h.map (Spec.renameStep π)) := by
  intro arg op hm
  obtain ⟨st, hst, he⟩ := List.mem_map.1 hm
  cases st with
  | read q => cases he
  | op o =>
    cases o with
    | addEdges a' op' =>
      simp only [Spec.renameStep, Step.op.injEq, GOp.addEdges.injEq] at he
      obtain ⟨rfl, rfl⟩ := he
      exact nonNeg_rename hπ (hh _ _ hst)
    | removeEdges a => cases he
    | addExtraSelfloop => cases he
    | removeExtraSelfloop => cases he
    | removeSelfloop => cases he
    | clear => cases he

/-- the situation of C48: the same construction and history, once as is and once with all vertices
renamed -/
structure RenamedCopies (n : Nat) (π : Equiv.Perm Int) (g g' : GSt K) : Prop where
  ren : Spec.Renaming n π
  hist : ∃ arg extra op g₀ g₀' h, Graph.new n arg extra op = .ok g₀ ∧
    Graph.new n (arg.map (Spec.renameArg π)) extra op = .ok g₀' ∧
    (∀ a, arg = some a → NonNeg a) ∧ Spec.NonNegHistory h ∧
    g = run g₀ h ∧ g' = run g₀' (h.map (Spec.renameStep π))

theorem RenamedCopies.all {n : Nat} {π : Equiv.Perm Int} {g g' : GSt K} (h : RenamedCopies n π g g') :
    Renamed n π g g' ∧ Built NonNeg g ∧ Built NonNeg g' := by
  obtain ⟨hπ, arg, extra, op, g₀, g₀', h, h1, h2, h3, h4, rfl, rfl⟩ := h
  refine ⟨renamed_of_history hπ h1 h2 h, built_run_nonNeg (.new h1 h3) h4,
    built_run_nonNeg (.new h2 ?_) (nonNegHistory_rename hπ h4)⟩
  intro a ha
  cases arg with
  | none => cases ha
  | some a' =>
    cases ha
    exact nonNeg_rename hπ (h3 a' rfl)

theorem RenamedCopies.numV {n : Nat} {π : Equiv.Perm Int} {g g' : GSt K} (h : RenamedCopies n π g g') :
    (ask .numV g).1 = .ok (.num n) ∧ (ask .numV g').1 = .ok (.num n) := by
  obtain ⟨hr, hb, hb'⟩ := h.all
  exact ⟨by rw [ask_eq hb]; simp only [evAsk, hr.num], by rw [ask_eq hb']; simp only [evAsk, hr.num']⟩

theorem Renamed.deg {n : Nat} {π : Equiv.Perm Int} (hπ : Spec.Renaming n π) {g g' : GSt K}
    (hb : Built NonNeg g) (hb' : Built NonNeg g') (h : Renamed n π g g') (i : Nat) :
    Spec.deg (Spec.listing g') (ren π i : Nat) = Spec.deg (Spec.listing g) i := by
  have hR : InR n (Spec.listing g) := by
    rw [listing_lst hb, ← h.num]; exact lst_InR hb.inv.1 hb.pos
  have hR' : InR n (Spec.listing g') := by
    rw [listing_lst hb', ← h.num']; exact lst_InR hb'.inv.1 hb'.pos
  rw [← sum_wt_deg hR, ← sum_wt_deg hR', ← sum_ren hπ]
  exact sum_congr rfl fun j _ => h.wt hπ hb hb' i j

/-- C48. Renaming the vertices and permuting the features accordingly permutes the outputs of
`v2v` (sum and mean). -/
theorem C48_graph_v2v_equivariant {n : Nat} {π : Equiv.Perm Int} {g g' : GSt K}
    (h : RenamedCopies n π g g') (X X' : Dense K) (hX : X.rows = n) (hX' : X'.rows = n)
    (hXX : ∀ (j : Nat) c, j < n → X'.at_ (π j).toNat c = X.at_ j c) (keep keep' : Nat → Bool) (aggr : Aggr)
    (ha : aggr = .sum ∨ aggr = .mean) {Y Y' : Dense K}
    (hY : (ask (.v2v X aggr none 0 keep) g).1 = .ok (.feat Y))
    (hY' : (ask (.v2v X' aggr none 0 keep') g').1 = .ok (.feat Y')) (i c : Nat) (hi : i < n) :
    Y'.at_ (π i).toNat c = Y.at_ i c := by
  obtain ⟨hr, hb, hb'⟩ := h.all
  have hπ := h.ren
  obtain ⟨hn, hn'⟩ := h.numV
  have e : ∑ j ∈ range n, Spec.wt (Spec.listing g') (ren π i : Nat) (j : Nat) * X'.at_ j c =
      ∑ j ∈ range n, Spec.wt (Spec.listing g) (i : Nat) (j : Nat) * X.at_ j c := by
    rw [← sum_ren hπ]
    apply sum_congr rfl
    intro j hj
    rw [hr.wt hπ hb hb', show X'.at_ (ren π j) c = X.at_ j c from hXX j c (mem_range.1 hj)]
  rcases ha with rfl | rfl
  · obtain ⟨Z, h1, _, _, h2⟩ := C12_graph_v2v_sum hb hn X hX keep
    obtain ⟨Z', h1', _, _, h2'⟩ := C12_graph_v2v_sum hb' hn' X' hX' keep'
    rw [hY] at h1; cases h1
    rw [hY'] at h1'; cases h1'
    rw [h2, h2']; exact e
  · obtain ⟨Z, h1, _, _, h2⟩ := C12_graph_v2v_mean hb hn X hX keep
    obtain ⟨Z', h1', _, _, h2'⟩ := C12_graph_v2v_mean hb' hn' X' hX' keep'
    rw [hY] at h1; cases h1
    rw [hY'] at h1'; cases h1'
    have hd := hr.deg hπ hb hb' i
    have h3 := h2 i c hi
    have h3' := h2' (ren π i) c ((ren_lt hπ i).2 hi)
    rw [hd, e] at h3'
    show Y'.at_ (ren π i) c = _
    by_cases h0 : Spec.deg (Spec.listing g) (i : Int) = 0
    · rw [h3.1 h0, h3'.1 h0]
    · rw [h3.2 h0, h3'.2 h0]

/-- C48. All vertex matrices are permuted: adjacency and degrees. -/
theorem C48_graph_adjacency_equivariant {n : Nat} {π : Equiv.Perm Int} {g g' : GSt K}
    (h : RenamedCopies n π g g') {A A' : Sp K} (hA : (ask .A g).1 = .ok (.mat A))
    (hA' : (ask .A g').1 = .ok (.mat A')) (i j : Nat) :
    A'.get (π i).toNat (π j).toNat = A.get i j := by
  obtain ⟨hr, hb, hb'⟩ := h.all
  obtain ⟨hn, hn'⟩ := h.numV
  obtain ⟨_, h1, _, _, _, _, _, _, _, h2⟩ := C05_graph_adjacency hb hn
  obtain ⟨_, h1', _, _, _, _, _, _, _, h2'⟩ := C05_graph_adjacency hb' hn'
  rw [hA] at h1; cases h1
  rw [hA'] at h1'; cases h1'
  rw [h2, h2']
  exact hr.wt h.ren hb hb' i j

theorem Renamed.removeExtra {n : Nat} {π : Equiv.Perm Int} {g g' : GSt K} (h : Renamed n π g g') :
    Renamed n π (apply .removeExtraSelfloop g).2 (apply .removeExtraSelfloop g').2 :=
  ⟨h.map, rfl, h.num, h.num'⟩

theorem wt_withUnit (n : Nat) (l : List ((Int × Int) × K)) (i j : Nat) :
    Spec.wt (Spec.withUnitLoops n l) i j = Spec.wt l i j + if i = j ∧ i < n then 1 else 0 := by
  unfold Spec.withUnitLoops
  rw [wt_append]
  congr 1
  induction n with
  | zero => simp
  | succ m ih =>
    rw [List.range_succ, List.map_append, wt_append, ih]
    simp only [List.map_cons, List.map_nil, wt_cons, wt_nil, add_zero, Prod.mk.injEq]
    by_cases h1 : i = j ∧ i < m
    · rw [if_pos h1, if_neg (by omega), if_pos (by omega), add_zero]
    · rw [if_neg h1, zero_add]
      by_cases h2 : i = j ∧ i < m + 1
      · rw [if_pos h2, if_pos (by omega)]
      · rw [if_neg h2, if_neg (by omega)]

theorem Renamed.gcn [IsStrictOrderedRing K] {n : Nat} {π : Equiv.Perm Int} {g g' : GSt K}
    (hπ : Spec.Renaming n π) (hr : Renamed n π g g') (hb : Built NonNeg g) (hb' : Built NonNeg g')
    (hw : Spec.NonnegWeights (Spec.listing g))
    (hw' : Spec.NonnegWeights (Spec.listing g')) {L L' : Sp K}
    (hL : (ask .LGCN g).1 = .ok (.mat L)) (hL' : (ask .LGCN g').1 = .ok (.mat L')) :
    (∀ i j : Nat, i < n → j < n → L'.get (π i).toNat (π j).toNat = L.get i j) ∧
    (∀ (X X' : Dense K), X.rows = n → X'.rows = n →
      (∀ (j : Nat) c, j < n → X'.at_ (π j).toNat c = X.at_ j c) →
      ∀ keep keep' Y Y', (ask (.smoothGCN X 0 keep) g).1 = .ok (.feat Y) →
      (ask (.smoothGCN X' 0 keep') g').1 = .ok (.feat Y') →
      ∀ i c : Nat, i < n → Y'.at_ (π i).toNat c = Y.at_ i c) := by
  have hn : (ask .numV g).1 = .ok (.num n) := by rw [ask_eq hb]; simp only [evAsk, hr.num]
  have hn' : (ask .numV g').1 = .ok (.num n) := by rw [ask_eq hb']; simp only [evAsk, hr.num']
  have hx : Built NonNeg (apply .removeExtraSelfloop g).2 := .op _ hb (by intro a op h; cases h)
  have hx' : Built NonNeg (apply .removeExtraSelfloop g').2 := .op _ hb' (by intro a op h; cases h)
  have hwt : ∀ i j : Nat, Spec.wt (Spec.withUnitLoops n (Spec.listing (apply .removeExtraSelfloop g').2))
      (ren π i : Nat) (ren π j : Nat) =
      Spec.wt (Spec.withUnitLoops n (Spec.listing (apply .removeExtraSelfloop g).2)) i j := by
    intro i j
    rw [wt_withUnit, wt_withUnit, hr.removeExtra.wt hπ hx hx']
    simp only [ren_inj hπ, ren_lt hπ]
  have hR : ∀ {g : GSt K}, Built NonNeg g → g.raw.numV = n →
      InR n (Spec.withUnitLoops n (Spec.listing g)) := by
    intro g hb hn e he
    rcases List.mem_append.1 he with he | he
    · rw [listing_lst hb] at he; rw [← hn]; exact lst_InR hb.inv.1 hb.pos e he
    · obtain ⟨v, hv, rfl⟩ := List.mem_map.1 he
      have := List.mem_range.1 hv
      simp only; omega
  have hdeg : ∀ i : Nat, Spec.deg (Spec.withUnitLoops n (Spec.listing (apply .removeExtraSelfloop g').2))
      (ren π i : Nat) = Spec.deg (Spec.withUnitLoops n (Spec.listing (apply .removeExtraSelfloop g).2)) i := by
    intro i
    rw [← sum_wt_deg (hR hx hr.num), ← sum_wt_deg (hR hx' hr.num'), ← sum_ren hπ]
    exact sum_congr rfl fun j _ => hwt i j
  obtain ⟨M, s, h1, h2, h3, _⟩ := C11_graph_LGCN hb hn hw
  obtain ⟨M', s', h1', h2', h3', _⟩ := C11_graph_LGCN hb' hn' hw'
  rw [hL] at h1; cases h1
  rw [hL'] at h1'; cases h1'
  have hs : ∀ i, i < n → s' (ren π i) = s i := by
    intro i hi
    have a := h2' (ren π i) ((ren_lt hπ i).2 hi)
    rw [hdeg] at a
    exact InvSqrt.unique a (h2 i hi)
  have hLL : ∀ i j, i < n → j < n → L'.get (ren π i) (ren π j) = L.get i j := by
    intro i j hi hj
    rw [h3.get i j hi hj, h3'.get _ _ ((ren_lt hπ i).2 hi) ((ren_lt hπ j).2 hj), hs i hi, hs j hj, hwt]
  refine ⟨hLL, ?_⟩
  intro X X' hX hX' hXX keep keep' Y Y' hY hY' i c hi
  obtain ⟨Z, h4, _, _, h5⟩ := C11_graph_smoothing hb hn hw hL X hX keep
  obtain ⟨Z', h4', _, _, h5'⟩ := C11_graph_smoothing hb' hn' hw' hL' X' hX' keep'
  rw [hY] at h4; cases h4
  rw [hY'] at h4'; cases h4'
  show Y'.at_ (ren π i) c = _
  rw [h5, h5', ← sum_ren hπ]
  apply sum_congr rfl
  intro j hj
  rw [hLL i j hi (mem_range.1 hj), show X'.at_ (ren π j) c = X.at_ j c from hXX j c (mem_range.1 hj)]

/-- C48. Renaming permutes `L_GCN` and the outputs of `smoothing_with_GCN`. -/
theorem C48_graph_gcn_equivariant [IsStrictOrderedRing K] {n : Nat} {π : Equiv.Perm Int} {g g' : GSt K}
    (h : RenamedCopies n π g g') (hw : Spec.NonnegWeights (Spec.listing g))
    (hw' : Spec.NonnegWeights (Spec.listing g')) {L L' : Sp K}
    (hL : (ask .LGCN g).1 = .ok (.mat L)) (hL' : (ask .LGCN g').1 = .ok (.mat L')) :
    (∀ i j : Nat, i < n → j < n → L'.get (π i).toNat (π j).toNat = L.get i j) ∧
    (∀ (X X' : Dense K), X.rows = n → X'.rows = n →
      (∀ (j : Nat) c, j < n → X'.at_ (π j).toNat c = X.at_ j c) →
      ∀ keep keep' Y Y', (ask (.smoothGCN X 0 keep) g).1 = .ok (.feat Y) →
      (ask (.smoothGCN X' 0 keep') g').1 = .ok (.feat Y') →
      ∀ i c : Nat, i < n → Y'.at_ (π i).toNat c = Y.at_ i c) :=
  h.all.1.gcn h.ren h.all.2.1 h.all.2.2 hw hw' hL hL'

/-- a renaming of three vertices that is not the identity -/
example : ∃ (π : Equiv.Perm Int) (g g' : GSt ℝ), π 0 = 1 ∧ RenamedCopies 3 π g g' ∧
    Spec.NonnegWeights (Spec.listing g) ∧ Spec.NonnegWeights (Spec.listing g') := by
  have hπ : Spec.Renaming 3 (Equiv.swap (0 : Int) 1) := by
    constructor <;> intro x <;> rw [Equiv.swap_apply_def] <;> split <;> rename_i h1 <;>
      first | (subst h1; norm_num) | (split <;> rename_i h2 <;> first | (subst h2; norm_num) | rfl)
  have ha : ∀ es : List (Int × Int), ∀ x ∈ ([1, 1] : List ℝ), 0 ≤ x := by
    intro _ x hx; simp at hx; rw [hx]; norm_num
  let g : GSt ℝ := { raw := { numV := 3, eDict := [((0, 1), 1), ((1, 2), 1)], loops := [], extra := false }, cache := [] }
  let g' : GSt ℝ := { raw := { numV := 3, eDict := [((0, 1), 1), ((0, 2), 1)], loops := [], extra := false }, cache := [] }
  refine ⟨Equiv.swap 0 1, g, g', Equiv.swap_apply_left _ _, ⟨hπ, some (.many [(0, 1), (1, 2)] .none), false,
    .sum, g, g', [], rfl, ?_, ?_, ?_, rfl, rfl⟩, ?_, ?_⟩
  · have : (Option.map (Spec.renameArg (Equiv.swap (0 : Int) 1)) (some (EArg.many (K := ℝ) [(0, 1), (1, 2)] .none))) =
        some (.many [(1, 0), (0, 2)] .none) := by
      simp only [Option.map_some, Spec.renameArg, List.map_cons, List.map_nil, Equiv.swap_apply_left,
        Equiv.swap_apply_right]
      rw [Equiv.swap_apply_of_ne_of_ne (by norm_num) (by norm_num)]
    rw [this]; rfl
  · intro a h; cases h; simp [NonNeg]
  · intro arg op h; cases h
  · intro e he
    change e ∈ [(((0 : Int), (1 : Int)), (1 : ℝ)), ((1, 2), 1)] at he
    simp only [List.mem_cons, List.not_mem_nil, or_false] at he
    rcases he with rfl | rfl <;> norm_num
  · intro e he
    change e ∈ [(((0 : Int), (1 : Int)), (1 : ℝ)), ((0, 2), 1)] at he
    simp only [List.mem_cons, List.not_mem_nil, or_false] at he
    rcases he with rfl | rfl <;> norm_num

end Props
end DHG
