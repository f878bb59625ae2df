import Verif.Props.Vis

/-!
# Sizes, colours, widths, labels and strengths in drawings (C103)
-/

set_option linter.unusedSectionVars false
set_option autoImplicit false

namespace DHG

namespace Spec
open Vis

/-- the factor a size argument gives for element `i` -/
noncomputable def factor (a : SizeArg) (i : Nat) : ℝ :=
  match a with
  | .none => 1
  | .list xs => xs.getD i 0
  | .float x => x
  | .int z => z
  | .other => 0

/-- the colour a colour argument gives for element `i` -/
def colour (a : Option Col) (dflt : Col) (i : Nat) : Option Col :=
  match a with
  | none => some dflt
  | some (.lst (.num x :: cs)) => some (.lst (.num x :: cs))
  | some (.lst cs) => cs[i]?
  | some c => some c

/-- the label of vertex `i`, if labels are given -/
def labelOf (l : Option (List String)) (i : Nat) : String := (l.getD []).getD i ""

/-- the strength chosen by the user, as a factor -/
def strength (a : Option ℝ) : ℝ := a.getD 1

/-- the vertices are drawn as `n` discs around `pos`, with the given radii, line widths and face colours, and
their non-empty labels below them -/
structure Vertices (n : Nat) (pos : Nat → Pt) (radius width : Nat → ℝ) (face : Nat → Option Col) (label : Nat → String)
    (font : ℝ) (P : Picture) : Prop where
  discs : P.discs = (List.range n).map fun i => ⟨pos i, radius i, width i⟩
  faces : ∀ i < n, P.faces[i]? = face i
  labels : P.labels = ((List.range n).filter fun i => label i ≠ "").map fun i =>
    ⟨((pos i).1, (pos i).2 - 13 / 10 * radius i), label i, font⟩

/-- a list of colours has one for each of the `n` elements -/
def OneEach (a : Option Col) (n : Nat) : Prop :=
  ∀ cs, a = some (.lst cs) → (∃ x, cs.head? = some (.num x)) ∨ cs.length = n

/-- `f` for the vertices of the first side, `g` for those of the second -/
def sides {α : Type} (numU : Nat) (f g : Nat → α) (i : Nat) : α := if i < numU then f i else g (i - numU)

/-- the default font size for the labels of a side with `a` vertices opposite to a side with `b` vertices -/
noncomputable def biFont (a b : Nat) : ℝ := 12 * Real.exp (-((a : ℝ) / b) ^ (3 / 10 : ℝ) * (a + b) / 100)

/-- the hyperedges are outlined in the given order: one with a single vertex by a full circle, any other by a closed
curve around some of its vertices, both of them if there are two; the circles around a vertex grow with each hyperedge
containing it that is drawn -/
def Outlined (order : List Nat) (eList : List (List Nat)) (pos : Nat → Pt) (size : Nat → ℝ) (o : Nat → Outline) : Prop :=
  ∀ k (hk : k < order.length),
    (∃ v, eList.getD order[k] [] = [v] ∧ (o order[k]).lines = [] ∧
        (o order[k]).arcs = [⟨pos v, 0, 360, Props.Spec.ring eList order size k v⟩]) ∨
      ∃ vs : List Nat, (∀ v ∈ vs, v ∈ eList.getD order[k] []) ∧
        Props.Spec.Encloses pos (Props.Spec.ring eList order size k) vs (o order[k]) ∧
        ((eList.getD order[k] []).length = 2 → vs = eList.getD order[k] [])

/-- the patches are the lines and the arcs of all outlines, those of hyperedge `k` with line width, fill and line
colour `k` -/
def Styled (m : Nat) (o : Nat → Outline) (width : Nat → ℝ) (fill color : Nat → Option Col) (Q : Patches) : Prop :=
  ∃ st : Nat → Style,
    (∀ k < m, (o k).lines ≠ [] ∨ (o k).arcs ≠ [] →
      (st k).width = width k ∧ some (st k).fill = fill k ∧ some (st k).color = color k) ∧
    Q.paths = ((List.range m).filter fun k => !(o k).lines.isEmpty).map (fun k => ((o k).lines, st k)) ∧
    Q.arcs = (List.range m).flatMap fun k => (o k).arcs.map fun a => (a, st k)

/-- the layout places the first `n` vertices at `pos` -/
def Places (n : Nat) (q : Nat → NPt) (pos : Nat → Pt) : Prop := ∀ i < n, q i = (some (pos i).1, some (pos i).2)

end Spec

namespace Props
open Vis

namespace Sty

theorem fillSizes_eq {a : SizeArg} {d : ℝ} {n : Nat} {xs : List ℝ} (h : fillSizes a d n = .ok xs) :
    xs = (List.range n).map fun i => d * Spec.factor a i := by
  have rep : ∀ y : ℝ, List.replicate n y = (List.range n).map fun _ => y := by
    intro y
    rw [List.map_const', List.length_range]
  cases a with
  | none => rw [← Except.ok.inj h, rep]; simp [Spec.factor]
  | list ys =>
    unfold fillSizes at h
    dsimp only at h
    split at h
    · next hl =>
      rw [← Except.ok.inj h]
      apply List.ext_getElem
      · simpa using hl
      · intro i h1 h2
        have : i < ys.length := by simpa using h1
        simp [Spec.factor, this]
    · cases h
  | float x => rw [← Except.ok.inj h, rep]; rfl
  | int z => rw [← Except.ok.inj h, rep]; rfl
  | other => cases h

theorem fillColor_get {a : Option Col} {d : Col} {n : Nat} {cs : List Col} (h : fillColor a d n = .ok cs) :
    ∀ i < n, cs[i]? = Spec.colour a d i := by
  intro i hi
  unfold fillColor at h
  split at h
  · rw [← Except.ok.inj h]; simp [Spec.colour, hi]
  · cases h
  · rw [← Except.ok.inj h]; simp [Spec.colour, hi]
  · next c cs' hne =>
    rw [← Except.ok.inj h]
    cases c with
    | num x => exact absurd rfl (hne x)
    | name s => rfl
    | tup xs => rfl
    | lst xs => rfl
  · rw [← Except.ok.inj h]; simp [Spec.colour, hi]
  · cases h
  · cases h

theorem solid_places {n : Nat} {q : Nat → NPt} {pos : Nat → Pt} (h : solid n q = .ok pos) : Spec.Places n q pos := by
  unfold solid at h
  split at h
  case isFalse => cases h
  case isTrue hs =>
  intro i hi
  rw [← Except.ok.inj h]
  obtain ⟨h1, h2⟩ := hs i hi
  obtain ⟨x, hx⟩ := Option.isSome_iff_exists.1 h1
  obtain ⟨y, hy⟩ := Option.isSome_iff_exists.1 h2
  rw [Prod.ext_iff]
  simp only [hx, hy, Option.getD_some, and_self]

theorem vertices_of {n : Nat} {pos : Nat → Pt} {label : Option (List String)} {font : ℝ} {radius width : Nat → ℝ}
    {vs vl : List ℝ} (hvs : vs = (List.range n).map radius) (hvl : vl = (List.range n).map width)
    (hl : ∀ l, label = some l → l.length = n) {arrows : List Arrow} {faces : List Col} {face : Nat → Option Col}
    (hf : ∀ i < n, faces[i]? = face i) :
    Spec.Vertices n pos radius width face (Spec.labelOf label) font
      { arrows := arrows, discs := (drawVertex n pos label font vs vl).1, faces := faces
        labels := (drawVertex n pos label font vs vl).2 } := by
  have hlab : label.getD (List.replicate n "") = (List.range n).map (Spec.labelOf label) := by
    cases label with
    | none =>
      have : Spec.labelOf none = fun _ => "" := by funext i; simp [Spec.labelOf]
      rw [this, List.map_const', List.length_range]
      rfl
    | some l =>
      have := hl l rfl
      apply List.ext_getElem
      · simp [this]
      · intro i h1 h2
        have h1' : i < l.length := h1
        simp [Spec.labelOf, h1']
  have hrows : (((List.range n).map pos).zip (label.getD (List.replicate n ""))).zip (vs.zip vl) =
      (List.range n).map fun i => ((pos i, Spec.labelOf label i), (radius i, width i)) := by
    rw [hlab, hvs, hvl, List.zip_map', List.zip_map', List.zip_map']
  refine ⟨?_, hf, ?_⟩
  · unfold drawVertex
    dsimp only
    rw [hrows, List.map_map]
    rfl
  · unfold drawVertex
    dsimp only
    rw [hrows, List.filter_map, List.map_map]
    congr 1
    funext i
    simp only [Function.comp_apply, add_zero]
    congr 2
    ring

theorem strength_eq (a : Option ℝ) (d : ℝ) : fillStrength a d = Spec.strength a * d := by
  cases a with
  | none => simp [fillStrength, Spec.strength]
  | some x => rfl

theorem lineEdge_style {pos : Nat → Pt} {vs : List ℝ} {ar : Bool} {ec : List Col} {el : List ℝ} {k a b : Nat} {w : Arrow}
    (h : lineEdge pos vs ar ec el k a b = .ok w) :
    el[k]? = some w.width ∧ ec[k]? = some w.color ∧ w.head = if ar then 15 / 1000 * w.width else 0 := by
  unfold lineEdge at h
  obtain ⟨s, hs, h⟩ := Vi.bind_ok h
  obtain ⟨t, ht, h⟩ := Vi.bind_ok h
  obtain ⟨x, hx, h⟩ := Vi.bind_ok h
  obtain ⟨c, hc, h⟩ := Vi.bind_ok h
  dsimp only at h
  split at h
  · cases h
  · rw [← Except.ok.inj h]
    exact ⟨Vi.elim_ok hx, Vi.elim_ok hc, rfl⟩

theorem arrows_style {pos : Nat → Pt} {vs : List ℝ} {es : List (Nat × Nat)} {ar : Bool} {ec : List Col} {el : List ℝ}
    {width : Nat → ℝ} (hel : el = (List.range es.length).map width) {col : Nat → Option Col}
    (hec : ∀ k < es.length, ec[k]? = col k) {arrows : List Arrow} (ha : drawLineEdge pos vs es ar ec el = .ok arrows) :
    arrows.length = es.length ∧ ∀ k (hk : k < arrows.length), arrows[k].width = width k ∧
      some arrows[k].color = col k ∧ arrows[k].head = if ar then 15 / 1000 * width k else 0 := by
  obtain ⟨hal, hag⟩ := Vi.forall2_get (collectE_ok_iff.mp ha)
  have hlen : arrows.length = es.length := by rw [← hal]; simp
  refine ⟨hlen, fun k hk => ?_⟩
  have := hag k (by simpa using hlen ▸ hk) hk
  rw [List.getElem_zipIdx] at this
  obtain ⟨h1, h2, h3⟩ := lineEdge_style this
  have hk' : k < es.length := hlen ▸ hk
  simp only [Nat.zero_add] at h1 h2
  rw [hel, List.getElem?_map, List.getElem?_range hk'] at h1
  rw [hec k hk'] at h2
  have h1 : width k = arrows[k].width := Option.some.inj h1
  rw [h1]
  exact ⟨rfl, h2.symm, h3⟩

theorem defaultSize_ok {n m : Nat} {a b c : SizeArg} {z : Sizes} (h : defaultSize n m a b c (some 1) = .ok z) :
    z.v = (List.range n).map (fun i => Spec.factor a i * (1 / 10 / Real.sqrt (n + 10))) ∧
    z.vLine = (List.range n).map (fun i => Spec.factor b i * Real.exp (-n / 50)) ∧
    z.eLine = (List.range m).map (fun i => Spec.factor c i * Real.exp (-m / 120)) ∧
    z.font = 20 * Real.exp (-n / 100) := by
  unfold defaultSize at h
  obtain ⟨v, hv, h⟩ := Vi.bind_ok h
  obtain ⟨vl, hvl, h⟩ := Vi.bind_ok h
  obtain ⟨el, hel, h⟩ := Vi.bind_ok h
  rw [← Except.ok.inj h]
  refine ⟨?_, ?_, ?_, ?_⟩
  · rw [fillSizes_eq hv]
    refine List.map_congr_left fun i _ => ?_
    unfold dfltVSize
    ring
  · rw [fillSizes_eq hvl]
    refine List.map_congr_left fun i _ => ?_
    unfold dfltVLine
    ring
  · rw [fillSizes_eq hel]
    refine List.map_congr_left fun i _ => ?_
    unfold dfltELine
    ring
  · dsimp only
    unfold dfltFont
    ring

end Sty

/-- C103, partial. In the drawings of graphs and directed graphs with `n` vertices and `m` edges, the vertices are
where the layout for the given strengths places them; vertex `i` has the size, line width, colour and label given for
it, edge `k` the width and colour given for it, as multiples of defaults that only depend on `n` and `m`. Missing: the
font size and `push_e_strength`, which have no effect (`C95_font_size_false`, `C103_push_e_false`). -/
theorem C103_draw_graph_partial (R : Rand) (arrow : Bool) (A : DrawArgs) (n : Nat) (es : List (Nat × Nat))
    (hl : ∀ l, A.label = some l → l.length = n) (P : Picture) (h : drawLines R arrow A n es.length es = .ok P) :
    ∃ q pos, forceLayout R n (es.map fun e => [(e.1 : Int), (e.2 : Int)]) (Spec.strength A.pushV * (6 / 1000)) none
        (Spec.strength A.pullE * (45 / 1000)) (Spec.strength A.pullC * (1 / 100)) = .ok q ∧ Spec.Places n q pos ∧
      Spec.Vertices n pos (fun i => Spec.factor A.vSize i * (1 / 10 / Real.sqrt (n + 10)))
        (fun i => Spec.factor A.vLine i * Real.exp (-n / 50)) (Spec.colour A.vColor (.name "r")) (Spec.labelOf A.label)
        (20 * Real.exp (-n / 100)) P ∧
      P.arrows.length = es.length ∧ ∀ k (hk : k < P.arrows.length),
        P.arrows[k].width = Spec.factor A.eLine k * Real.exp (-es.length / 120) ∧
        some P.arrows[k].color = Spec.colour A.eColor (.name "gray") k ∧
        P.arrows[k].head = if arrow then 15 / 1000 * (Spec.factor A.eLine k * Real.exp (-es.length / 120)) else 0 := by
  unfold drawLines at h
  obtain ⟨_, _, h⟩ := Vi.bind_ok h
  obtain ⟨vc, hvc, h⟩ := Vi.bind_ok h
  obtain ⟨ec, hec, h⟩ := Vi.bind_ok h
  obtain ⟨z, hz, h⟩ := Vi.bind_ok h
  obtain ⟨q, hq, h⟩ := Vi.bind_ok h
  obtain ⟨pos, hpos, h⟩ := Vi.bind_ok h
  obtain ⟨arrows, ha, h⟩ := Vi.bind_ok h
  obtain ⟨z1, z2, z3, z4⟩ := Sty.defaultSize_ok hz
  simp only [Sty.strength_eq] at hq
  rw [← Except.ok.inj h]
  obtain ⟨a1, a2⟩ := Sty.arrows_style z3 (Sty.fillColor_get hec) ha
  refine ⟨q, pos, hq, Sty.solid_places hpos, ?_, a1, a2⟩
  have := Sty.vertices_of (pos := pos) (font := z.font) (arrows := arrows) z1 z2 hl (Sty.fillColor_get hvc)
  rw [z4] at this ⊢
  exact this

/-- C103 fails for `push_e_strength` of `draw_graph`, `draw_digraph` and `draw_bigraph`: it has no effect. -/
theorem C103_push_e_false (R : Rand) (arrow : Bool) (A : DrawArgs) (B : BiDrawArgs) (x : Option ℝ) (n numE numU numV : Nat)
    (es : List (Nat × Nat)) (hull : List Pt → Except Err (List Nat)) (order : List Nat) :
    drawLines R arrow { A with pushE := x } n numE es = drawLines R arrow A n numE es ∧
    drawCircles R hull order { A with pushE := x } n numE es = drawCircles R hull order A n numE es ∧
    drawBigraph R { B with pushE := x } numU numV es = drawBigraph R B numU numV es := ⟨rfl, rfl, rfl⟩

namespace Sty

theorem range_sides {α : Type} (a b : Nat) (f g : Nat → α) :
    (List.range a).map f ++ (List.range b).map g = (List.range (a + b)).map (Spec.sides a f g) := by
  rw [List.range_add, List.map_append, List.map_map]
  congr 1
  · refine List.map_congr_left fun i hi => ?_
    rw [Spec.sides, if_pos (List.mem_range.1 hi)]
  · refine List.map_congr_left fun i _ => ?_
    simp [Spec.sides]

theorem fillColor_length {a : Option Col} {d : Col} {n : Nat} {cs : List Col} (h : fillColor a d n = .ok cs)
    (hn : Spec.OneEach a n) : cs.length = n := by
  unfold fillColor at h
  split at h
  · rw [← Except.ok.inj h]; simp
  · cases h
  · rw [← Except.ok.inj h]; simp
  · next c cs' hne =>
    rw [← Except.ok.inj h]
    rcases hn _ rfl with ⟨x, hx⟩ | h'
    · exact absurd (Option.some.inj hx) (hne x)
    · exact h'
  · rw [← Except.ok.inj h]; simp
  · cases h
  · cases h

theorem bipartiteSize_ok {a b m : Nat} {us ul vs vl el : SizeArg} {uf vf : Option ℝ} {zu zv : Sizes}
    (h : defaultBipartiteSize a b m us ul vs vl el uf vf = .ok (zu, zv)) :
    0 < a ∧ 0 < b ∧
    zu.v = (List.range a).map (fun i => Spec.factor us i * (8 / 100 / Real.sqrt (a + 12))) ∧
    zv.v = (List.range b).map (fun i => Spec.factor vs i * (8 / 100 / Real.sqrt (b + 12))) ∧
    zu.vLine = (List.range a).map (fun i => Spec.factor ul i * Real.exp (-a / 50)) ∧
    zv.vLine = (List.range b).map (fun i => Spec.factor vl i * Real.exp (-b / 50)) ∧
    zu.eLine = (List.range m).map (fun i => Spec.factor el i * Real.exp (-m / 50)) ∧
    zu.font = Spec.strength uf * Spec.biFont a b ∧ zv.font = Spec.strength vf * Spec.biFont b a := by
  unfold defaultBipartiteSize at h
  obtain ⟨_, h0, h⟩ := Vi.bind_ok h
  obtain ⟨x1, h1, h⟩ := Vi.bind_ok h
  obtain ⟨x2, h2, h⟩ := Vi.bind_ok h
  obtain ⟨x3, h3, h⟩ := Vi.bind_ok h
  obtain ⟨x4, h4, h⟩ := Vi.bind_ok h
  obtain ⟨x5, h5, h⟩ := Vi.bind_ok h
  obtain ⟨hu, hv⟩ := (Prod.mk.injEq _ _ _ _).mp (Except.ok.inj h)
  have h0 := Vi.need_ok h0
  rw [← hu, ← hv]
  refine ⟨by omega, by omega, ?_, ?_, ?_, ?_, ?_, ?_, ?_⟩
  · rw [fillSizes_eq h1]; exact List.map_congr_left fun i _ => by ring
  · rw [fillSizes_eq h3]; exact List.map_congr_left fun i _ => by ring
  · rw [fillSizes_eq h2]; exact List.map_congr_left fun i _ => by unfold dfltVLine; ring
  · rw [fillSizes_eq h4]; exact List.map_congr_left fun i _ => by unfold dfltVLine; ring
  · rw [fillSizes_eq h5]; exact List.map_congr_left fun i _ => by ring
  · cases uf with
    | none => simp [Spec.strength, Spec.biFont]
    | some x => rfl
  · have hc : ∀ t : ℝ, 12 * Real.exp (-t * ((a : ℝ) + b) / 100) = 12 * Real.exp (-t * ((b : ℝ) + a) / 100) := by
      intro t; rw [add_comm (a : ℝ)]
    cases vf with
    | none => simp only [Spec.strength, Spec.biFont, Option.elim, Option.getD_none, one_mul]; exact hc _
    | some x => simp only [Spec.strength, Spec.biFont, Option.elim, Option.getD_some]; rw [hc]

end Sty

/-- C103, partial. The same for `draw_bigraph`, with the arguments of the first side for its vertices and those of the
second side for the others. Missing: the labels get one font size for both sides (`C103_bigraph_font_false`), none are
drawn if only one side has labels (`C98_labels_false`), and `push_e_strength` has no effect. -/
theorem C103_draw_bigraph_partial (R : Rand) (A : BiDrawArgs) (a b : Nat) (es : List (Nat × Nat))
    (hu : ∀ l, A.uLabel = some l → l.length = a) (hv : ∀ l, A.vLabel = some l → l.length = b)
    (hc : Spec.OneEach A.uColor a) (P : Picture) (h : drawBigraph R A a b es = .ok P) :
    ∃ qu qv pos, bipartiteForceLayout R a b (es.map fun e => [(e.1 : Int), (e.2 : Int)])
        (Spec.strength A.pushU * (5 / 1000)) (Spec.strength A.pushV * (5 / 1000)) none
        (Spec.strength A.pullE * (3 / 100)) (Spec.strength A.pullU * (4 / 100)) (Spec.strength A.pullV * (4 / 100)) =
        .ok (qu, qv) ∧ Spec.Places (a + b) (Spec.sides a qu qv) pos ∧
      Spec.Vertices (a + b) pos
        (Spec.sides a (fun i => Spec.factor A.uSize i * (8 / 100 / Real.sqrt (a + 12)))
          (fun i => Spec.factor A.vSize i * (8 / 100 / Real.sqrt (b + 12))))
        (Spec.sides a (fun i => Spec.factor A.uLine i * Real.exp (-a / 50))
          (fun i => Spec.factor A.vLine i * Real.exp (-b / 50)))
        (Spec.sides a (Spec.colour A.uColor (.name "m")) (Spec.colour A.vColor (.name "r")))
        (fun i => if A.uLabel = none ∨ A.vLabel = none then "" else
          Spec.sides a (Spec.labelOf A.uLabel) (Spec.labelOf A.vLabel) i)
        (Spec.strength A.uFont * Spec.biFont a b + Spec.strength A.vFont * Spec.biFont b a) P ∧
      P.arrows.length = es.length ∧ ∀ k (hk : k < P.arrows.length),
        P.arrows[k].width = Spec.factor A.eLine k * Real.exp (-es.length / 50) ∧
        some P.arrows[k].color = Spec.colour A.eColor (.name "gray") k ∧ P.arrows[k].head = 0 := by
  unfold drawBigraph at h
  obtain ⟨_, _, h⟩ := Vi.bind_ok h
  obtain ⟨uc, huc, h⟩ := Vi.bind_ok h
  obtain ⟨vc, hvc, h⟩ := Vi.bind_ok h
  obtain ⟨ec, hec, h⟩ := Vi.bind_ok h
  obtain ⟨⟨zu, zv⟩, hz, h⟩ := Vi.bind_ok h
  obtain ⟨⟨qu, qv⟩, hq, h⟩ := Vi.bind_ok h
  obtain ⟨pos, hpos, h⟩ := Vi.bind_ok h
  obtain ⟨arrows, ha, h⟩ := Vi.bind_ok h
  obtain ⟨_, _, z1, z2, z3, z4, z5, z6, z7⟩ := Sty.bipartiteSize_ok hz
  simp only [Sty.strength_eq] at hq
  rw [← Except.ok.inj h]
  obtain ⟨a1, a2⟩ := Sty.arrows_style (es := es.map fun e => (e.1, e.2 + a)) (by rw [List.length_map]; exact z5)
    (by rw [List.length_map]; exact Sty.fillColor_get hec) ha
  rw [List.length_map] at a1
  refine ⟨qu, qv, pos, hq, Sty.solid_places hpos, ?_, a1, a2⟩
  have hlu := Sty.fillColor_length huc hc
  have hf : ∀ i < a + b, (uc ++ vc)[i]? =
      Spec.sides a (Spec.colour A.uColor (.name "m")) (Spec.colour A.vColor (.name "r")) i := by
    intro i hi
    unfold Spec.sides
    split
    · next h => rw [List.getElem?_append_left (by omega)]; exact Sty.fillColor_get huc i h
    · next h =>
      rw [List.getElem?_append_right (by omega), hlu]
      exact Sty.fillColor_get hvc _ (by omega)
  have e1 := (congrArg₂ HAppend.hAppend z1 z2).trans (Sty.range_sides a b _ _)
  have e2 := (congrArg₂ HAppend.hAppend z3 z4).trans (Sty.range_sides a b _ _)
  have hlen : ∀ l, (match A.uLabel, A.vLabel with
      | some a, some b => some (a ++ b)
      | _, _ => none : Option (List String)) = some l → l.length = a + b := by
    intro l hl
    cases hA : A.uLabel with
    | none => rw [hA] at hl; cases hl
    | some lu =>
      cases hB : A.vLabel with
      | none => rw [hA, hB] at hl; cases hl
      | some lv =>
        rw [hA, hB] at hl
        rw [← Option.some.inj hl, List.length_append, hu _ hA, hv _ hB]
  have ht : Spec.labelOf (match A.uLabel, A.vLabel with
      | some a, some b => some (a ++ b)
      | _, _ => none : Option (List String)) = fun i => if A.uLabel = none ∨ A.vLabel = none then "" else
          Spec.sides a (Spec.labelOf A.uLabel) (Spec.labelOf A.vLabel) i := by
    funext i
    cases hA : A.uLabel with
    | none => simp [Spec.labelOf]
    | some lu =>
      cases hB : A.vLabel with
      | none => simp [Spec.labelOf]
      | some lv =>
        have h1 := hu _ hA
        have h2 := hv _ hB
        simp only [Spec.labelOf, Spec.sides, Option.getD_some, reduceCtorEq, or_self, if_false]
        split
        · next h => rw [List.getD_append _ _ _ _ (by omega)]
        · next h => rw [List.getD_append_right _ _ _ _ (by omega), h1]
  have := Sty.vertices_of (pos := pos) (font := zu.font + zv.font) (arrows := arrows) e1 e2 hlen hf
  rw [ht, z6, z7] at this
  rw [z6, z7]
  exact this

/-- C103 fails for the font sizes of `draw_bigraph`: all labels are larger than asked for, for both sides, since the two
sizes are added. -/
theorem C103_bigraph_font_false (R : Rand) (A : BiDrawArgs) (a b : Nat) (es : List (Nat × Nat))
    (hu : ∀ l, A.uLabel = some l → l.length = a) (hv : ∀ l, A.vLabel = some l → l.length = b)
    (hc : Spec.OneEach A.uColor a) (h1 : 0 < Spec.strength A.uFont) (h2 : 0 < Spec.strength A.vFont)
    (P : Picture) (h : drawBigraph R A a b es = .ok P) :
    ∀ l ∈ P.labels, Spec.strength A.uFont * Spec.biFont a b < l.font ∧ Spec.strength A.vFont * Spec.biFont b a < l.font := by
  obtain ⟨_, _, _, _, _, hP, _⟩ := C103_draw_bigraph_partial R A a b es hu hv hc P h
  intro l hl
  rw [hP.labels] at hl
  obtain ⟨i, _, rfl⟩ := List.mem_map.1 hl
  have e1 : 0 < Spec.biFont a b := by unfold Spec.biFont; positivity
  have e2 : 0 < Spec.biFont b a := by unfold Spec.biFont; positivity
  have := mul_pos h1 e1
  have := mul_pos h2 e2
  constructor <;> dsimp only <;> linarith

namespace Sty

theorem styleAt_ok {ec fc : List Col} {el : List ℝ} {k : Nat} {s : Style} (h : styleAt ec fc el k = .ok s) :
    el[k]? = some s.width ∧ fc[k]? = some s.fill ∧ ec[k]? = some s.color := by
  unfold styleAt at h
  obtain ⟨x, hx, h⟩ := Vi.bind_ok h
  obtain ⟨y, hy, h⟩ := Vi.bind_ok h
  obtain ⟨c, hc, h⟩ := Vi.bind_ok h
  rw [← Except.ok.inj h]
  exact ⟨Vi.elim_ok hx, Vi.elim_ok hy, Vi.elim_ok hc⟩

theorem lookup_nodup {os : List (Nat × Outline)} (hn : (os.map Prod.fst).Nodup) {k : Nat} (hk : k < os.length) :
    os.lookup os[k].1 = some os[k].2 := by
  induction os generalizing k with
  | nil => cases hk
  | cons x xs ih =>
    obtain ⟨e, o⟩ := x
    rw [List.map_cons, List.nodup_cons] at hn
    cases k with
    | zero => simp
    | succ k =>
      have hk' : k < xs.length := by simpa using hk
      simp only [List.getElem_cons_succ]
      rw [List.lookup_cons]
      have : (xs[k].1 == e) = false := by
        rw [beq_eq_false_iff_ne]
        rintro rfl
        exact hn.1 (List.mem_map.2 ⟨_, List.getElem_mem hk', rfl⟩)
      rw [this]
      exact ih hn.2 hk'

theorem elim_type {α : Type} {o : Option α} {a : α} (h : (o.elim (Except.error Err.type) Except.ok) = .ok a) : o = some a := by
  cases o with
  | none => cases h
  | some b => rw [Except.ok.inj h]

theorem flatten_filter {α β : Type} (xs : List α) (c : α → Bool) (f : α → β) :
    (xs.map fun x => if c x then [] else [f x]).flatten = (xs.filter fun x => !c x).map f := by
  induction xs with
  | nil => rfl
  | cons x xs ih =>
    rw [List.map_cons, List.flatten_cons, ih, List.filter_cons]
    cases c x <;> simp

theorem encloses_congr {pos : Nat → Pt} {r1 r2 : Nat → ℝ} {vs : List Nat} (hr : ∀ v ∈ vs, r1 v = r2 v) {o : Outline}
    (h : Props.Spec.Encloses pos r1 vs o) : Props.Spec.Encloses pos r2 vs o := by
  have hg : ∀ k < vs.length, r1 (vs.getD k 0) = r2 (vs.getD k 0) := by
    intro k hk
    rw [List.getD_eq_getElem _ _ hk]
    exact hr _ (List.getElem_mem hk)
  refine ⟨h.lines, h.arcs, fun k hk => ?_, fun k hk => ?_, h.joins⟩
  · have hk' : k < vs.length := by rw [← h.lines]; exact hk
    have := h.tangent k hk
    rwa [hg k hk', hg _ (Nat.mod_lt _ (by omega))] at this
  · have hk' : k < vs.length := by rw [← h.arcs]; exact hk
    have := h.corner k hk
    rwa [hg k hk'] at this

theorem circle_ok {hull : List Pt → Except Err (List Nat)} (hhull : ∀ pts idx, hull pts = .ok idx → ∀ k ∈ idx, k < pts.length)
    {order : List Nat} {eList : List (List Nat)} (ho : order.Perm (List.range eList.length)) {pos : Nat → Pt}
    {n : Nat} {size : Nat → ℝ} (hs : ∀ i < n, 0 ≤ size i) (he : ∀ e ∈ eList, ∀ v ∈ e, v < n) {ec fc : List Col}
    {width : Nat → ℝ} {fill color : Nat → Option Col}
    (hec : ∀ k < eList.length, ec[k]? = color k) (hfc : ∀ k < eList.length, fc[k]? = fill k) {Q : Patches}
    (h : drawCircleEdge hull order pos ((List.range n).map size) eList ec fc ((List.range eList.length).map width) = .ok Q) :
    ∃ o, Spec.Outlined order eList pos size o ∧ Spec.Styled eList.length o width fill color Q := by
  unfold drawCircleEdge at h
  obtain ⟨os, hos, h⟩ := Vi.bind_ok h
  obtain ⟨ps, hps, h⟩ := Vi.bind_ok h
  obtain ⟨as, has, h⟩ := Vi.bind_ok h
  obtain ⟨ol, og⟩ := C98_outlines hull hhull order eList pos _ (by
    intro v
    rcases Nat.lt_or_ge v n with hv | hv
    · rw [List.getD_eq_getElem _ _ (by simpa using hv)]
      simpa using hs v hv
    · rw [List.getD_eq_default _ _ (by simpa using hv)]) os hos
  have hfst : os.map Prod.fst = order := by
    apply List.ext_getElem
    · rw [List.length_map, ol]
    · intro k h1 h2
      rw [List.getElem_map]
      exact (og k (by simpa using h1) h2).1
  have hnd : (os.map Prod.fst).Nodup := by rw [hfst]; exact ho.nodup_iff.2 List.nodup_range
  have hlook : ∀ k (hk : k < order.length), os.lookup order[k] = some (os[k]'(by omega)).2 := by
    intro k hk
    rw [← (og k (by omega) hk).1]
    exact lookup_nodup hnd (by omega)
  set o : Nat → Outline := fun k => (os.lookup k).getD ⟨[], []⟩ with hodef
  have hmem : ∀ k < eList.length, os.lookup k = some (o k) := by
    intro k hk
    obtain ⟨j, hj, rfl⟩ := List.getElem_of_mem (ho.mem_iff.2 (List.mem_range.2 hk))
    rw [hodef]
    dsimp only
    rw [hlook j hj]
    rfl
  refine ⟨o, ?_, ?_⟩
  · intro k hk
    have hring : ∀ v, (∃ e ∈ eList, v ∈ e) → Props.Spec.ring eList order (fun v => ((List.range n).map size).getD v 0) k v =
        Props.Spec.ring eList order size k v := by
      rintro v ⟨e, hel, hv⟩
      have := he e hel v hv
      unfold Props.Spec.ring
      dsimp only
      rw [List.getD_eq_getElem _ _ (by simpa using this)]
      simp
    have hok : o order[k] = (os[k]'(by omega)).2 := by rw [hodef]; dsimp only; rw [hlook k hk]; rfl
    have hin : ∀ v ∈ eList.getD order[k] [], ∃ e ∈ eList, v ∈ e := by
      intro v hv
      have hlt : order[k] < eList.length := List.mem_range.1 (ho.mem_iff.1 (List.getElem_mem hk))
      rw [List.getD_eq_getElem _ _ hlt] at hv
      exact ⟨_, List.getElem_mem hlt, hv⟩
    rw [hok]
    rcases (og k (by omega) hk).2 with ⟨v, h1, h2, h3⟩ | ⟨vs, h1, h2, h3⟩
    · refine .inl ⟨v, h1, h2, ?_⟩
      rw [h3, hring v (hin v (by rw [h1]; exact List.mem_singleton_self v))]
    · refine .inr ⟨vs, h1, ?_, h3⟩
      exact encloses_congr (fun v hv => hring v (hin v (h1 v hv))) h2
  · set st : Nat → Style := fun k => match styleAt ec fc ((List.range eList.length).map width) k with
      | .ok s => s
      | .error _ => ⟨0, .num 0, .num 0⟩ with hst
    have hps' := collectE_ok_iff.mp hps
    have has' := collectE_ok_iff.mp has
    have hp : ps = (List.range eList.length).map fun k => if (o k).lines.isEmpty then [] else [((o k).lines, st k)] := by
      obtain ⟨hl, hg⟩ := Vi.forall2_get hps'
      apply List.ext_getElem
      · rw [← hl, List.length_map]
      · intro k h1 h2
        have hk : k < eList.length := by simpa using h2
        have hh := hg k (by simpa using hk) h1
        rw [List.getElem_range, hmem k hk] at hh
        rw [List.getElem_map, List.getElem_range]
        change (if (o k).lines.isEmpty = true then _ else _) = _ at hh
        split at hh
        · next he => rw [← Except.ok.inj hh, if_pos he]
        · next he =>
          rw [if_neg he, hst]
          dsimp only
          cases hsk : styleAt ec fc ((List.range eList.length).map width) k with
          | error e => rw [hsk] at hh; cases hh
          | ok s => rw [hsk] at hh; exact (Except.ok.inj hh).symm
    have ha : as = (List.range eList.length).map fun k => (o k).arcs.map fun a => (a, st k) := by
      obtain ⟨hl, hg⟩ := Vi.forall2_get has'
      apply List.ext_getElem
      · rw [← hl, List.length_map]
      · intro k h1 h2
        have hk : k < eList.length := by simpa using h2
        have hh := hg k (by simpa using hk) h1
        rw [List.getElem_range, hmem k hk] at hh
        rw [List.getElem_map, List.getElem_range]
        change collectE (o k).arcs _ = _ at hh
        obtain ⟨hl', hg'⟩ := Vi.forall2_get (collectE_ok_iff.mp hh)
        apply List.ext_getElem
        · rw [← hl', List.length_map]
        · intro j j1 j2
          have hj : j < (o k).arcs.length := by simpa using j2
          have hhj := hg' j hj j1
          rw [List.getElem_map]
          cases hsk : styleAt ec fc ((List.range eList.length).map width) k with
          | error e => rw [hsk] at hhj; cases hhj
          | ok s =>
            have hstk : st k = s := by rw [hst]; dsimp only; rw [hsk]
            rw [hsk] at hhj
            refine (Except.ok.inj hhj).symm.trans ?_
            exact congrArg (Prod.mk _) hstk.symm
    refine ⟨st, fun k hk hne => ?_, ?_, ?_⟩
    · have hok : ∃ s, styleAt ec fc ((List.range eList.length).map width) k = .ok s := by
        rcases hne with hne | hne
        · obtain ⟨hl, hg⟩ := Vi.forall2_get hps'
          have hh := hg k (by simpa using hk) (by rw [← hl]; simpa using hk)
          rw [List.getElem_range, hmem k hk] at hh
          change (if (o k).lines.isEmpty = true then _ else _) = _ at hh
          rw [if_neg (by simpa using hne)] at hh
          cases hsk : styleAt ec fc ((List.range eList.length).map width) k with
          | error e => rw [hsk] at hh; cases hh
          | ok s => exact ⟨s, rfl⟩
        · obtain ⟨hl, hg⟩ := Vi.forall2_get has'
          have hh := hg k (by simpa using hk) (by rw [← hl]; simpa using hk)
          rw [List.getElem_range, hmem k hk] at hh
          change collectE (o k).arcs _ = _ at hh
          obtain ⟨hl', hg'⟩ := Vi.forall2_get (collectE_ok_iff.mp hh)
          have h0 : 0 < (o k).arcs.length := List.length_pos_iff.2 hne
          have hhj := hg' 0 h0 (by rw [← hl']; exact h0)
          cases hsk : styleAt ec fc ((List.range eList.length).map width) k with
          | error e => rw [hsk] at hhj; cases hhj
          | ok s => exact ⟨s, rfl⟩
      obtain ⟨s, hs'⟩ := hok
      have hstk : st k = s := by rw [hst]; dsimp only; rw [hs']
      obtain ⟨e1, e2, e3⟩ := styleAt_ok hs'
      rw [List.getElem?_map, List.getElem?_range hk] at e1
      rw [hfc k hk] at e2
      rw [hec k hk] at e3
      rw [hstk]
      exact ⟨(Option.some.inj e1).symm, e2.symm, e3.symm⟩
    · rw [← Except.ok.inj h]
      dsimp only
      rw [hp]
      exact flatten_filter _ (fun k => (o k).lines.isEmpty) _
    · rw [← Except.ok.inj h]
      dsimp only
      rw [ha, List.flatMap_def]

end Sty

/-- C103, partial. `draw_graph` with circles: the vertices as with lines, and every edge outlined by a curve around its
two ends with the line width, the line colour and the fill colour given for it. Missing: as with lines. -/
theorem C103_draw_circles_partial (R : Rand) (hull : List Pt → Except Err (List Nat))
    (hhull : ∀ pts idx, hull pts = .ok idx → ∀ k ∈ idx, k < pts.length) (order : List Nat) (A : DrawArgs) (n : Nat)
    (es : List (Nat × Nat)) (hes : ∀ e ∈ es, e.1 < n ∧ e.2 < n) (ho : order.Perm (List.range es.length))
    (hs : ∀ i < n, 0 ≤ Spec.factor A.vSize i) (hl : ∀ l, A.label = some l → l.length = n) (P : Picture) (Q : Patches)
    (h : drawCircles R hull order A n es.length es = .ok (P, Q)) :
    ∃ q pos, forceLayout R n (es.map fun e => [(e.1 : Int), (e.2 : Int)]) (Spec.strength A.pushV * (6 / 1000)) none
        (Spec.strength A.pullE * (45 / 1000)) (Spec.strength A.pullC * (1 / 100)) = .ok q ∧ Spec.Places n q pos ∧
      Spec.Vertices n pos (fun i => Spec.factor A.vSize i * (1 / 10 / Real.sqrt (n + 10)))
        (fun i => Spec.factor A.vLine i * Real.exp (-n / 50)) (Spec.colour A.vColor (.name "r")) (Spec.labelOf A.label)
        (20 * Real.exp (-n / 100)) P ∧ P.arrows = [] ∧
      ∃ o, Spec.Outlined order (es.map fun e => [e.1, e.2]) pos
          (fun i => Spec.factor A.vSize i * (1 / 10 / Real.sqrt (n + 10))) o ∧
        Spec.Styled es.length o (fun k => Spec.factor A.eLine k * Real.exp (-es.length / 120))
          (Spec.colour A.eFill (.name "whitesmoke")) (Spec.colour A.eColor (.name "gray")) Q := by
  unfold drawCircles at h
  obtain ⟨_, _, h⟩ := Vi.bind_ok h
  obtain ⟨vc, hvc, h⟩ := Vi.bind_ok h
  obtain ⟨ec, hec, h⟩ := Vi.bind_ok h
  obtain ⟨fc, hfc, h⟩ := Vi.bind_ok h
  obtain ⟨z, hz, h⟩ := Vi.bind_ok h
  obtain ⟨q, hq, h⟩ := Vi.bind_ok h
  obtain ⟨pos, hpos, h⟩ := Vi.bind_ok h
  obtain ⟨patches, ha, h⟩ := Vi.bind_ok h
  obtain ⟨z1, z2, z3, z4⟩ := Sty.defaultSize_ok hz
  simp only [Sty.strength_eq] at hq
  obtain ⟨hP, hQ⟩ := (Prod.mk.injEq _ _ _ _).mp (Except.ok.inj h)
  rw [← hP, ← hQ]
  have hm : (es.map fun e => [e.1, e.2]).length = es.length := List.length_map _
  rw [z1, z3, ← hm] at ha
  obtain ⟨o, o1, o2⟩ := Sty.circle_ok hhull (by rw [hm]; exact ho)
    (fun i hi => mul_nonneg (hs i hi) (by positivity)) (by
      simp only [List.mem_map]
      rintro _ ⟨e, he, rfl⟩ v hv
      simp only [List.mem_cons, List.not_mem_nil, or_false] at hv
      rcases hv with rfl | rfl
      · exact (hes e he).1
      · exact (hes e he).2)
    (by rw [hm]; exact Sty.fillColor_get hec) (by rw [hm]; exact Sty.fillColor_get hfc) ha
  rw [hm] at o2
  refine ⟨q, pos, hq, Sty.solid_places hpos, ?_, rfl, o, o1, o2⟩
  have := Sty.vertices_of (pos := pos) (font := z.font) (arrows := []) z1 z2 hl (Sty.fillColor_get hvc)
  rw [z4] at this ⊢
  exact this

/-- C103, partial. `draw_hypergraph` likewise; here `push_e_strength` counts. Missing: the font size, which has no
effect (`C103_font_size_false`). -/
theorem C103_draw_hypergraph_partial (R : Rand) (hull : List Pt → Except Err (List Nat))
    (hhull : ∀ pts idx, hull pts = .ok idx → ∀ k ∈ idx, k < pts.length) (order : List Nat) (A : DrawArgs) (n : Nat)
    (es : List (List Nat)) (hes : ∀ e ∈ es, ∀ v ∈ e, v < n) (ho : order.Perm (List.range es.length))
    (hs : ∀ i < n, 0 ≤ Spec.factor A.vSize i) (hl : ∀ l, A.label = some l → l.length = n) (P : Picture) (Q : Patches)
    (h : drawHypergraph R hull order A n es = .ok (P, Q)) :
    ∃ q pos, forceLayout R n (es.map fun e => e.map fun v => (v : Int)) (Spec.strength A.pushV * (6 / 1000))
        (some (Spec.strength A.pushE * (8 / 1000))) (Spec.strength A.pullE * (7 / 1000))
        (Spec.strength A.pullC * (1 / 1000)) = .ok q ∧ Spec.Places n q pos ∧
      Spec.Vertices n pos (fun i => Spec.factor A.vSize i * (1 / 10 / Real.sqrt (n + 10)))
        (fun i => Spec.factor A.vLine i * Real.exp (-n / 50)) (Spec.colour A.vColor (.name "r")) (Spec.labelOf A.label)
        (20 * Real.exp (-n / 100)) P ∧ P.arrows = [] ∧
      ∃ o, Spec.Outlined order es pos (fun i => Spec.factor A.vSize i * (1 / 10 / Real.sqrt (n + 10))) o ∧
        Spec.Styled es.length o (fun k => Spec.factor A.eLine k * Real.exp (-es.length / 120))
          (Spec.colour A.eFill (.name "whitesmoke")) (Spec.colour A.eColor (.name "gray")) Q := by
  unfold drawHypergraph at h
  obtain ⟨_, _, h⟩ := Vi.bind_ok h
  obtain ⟨vc, hvc, h⟩ := Vi.bind_ok h
  obtain ⟨ec, hec, h⟩ := Vi.bind_ok h
  obtain ⟨fc, hfc, h⟩ := Vi.bind_ok h
  obtain ⟨z, hz, h⟩ := Vi.bind_ok h
  obtain ⟨q, hq, h⟩ := Vi.bind_ok h
  obtain ⟨pos, hpos, h⟩ := Vi.bind_ok h
  obtain ⟨patches, ha, h⟩ := Vi.bind_ok h
  obtain ⟨z1, z2, z3, z4⟩ := Sty.defaultSize_ok hz
  simp only [Sty.strength_eq] at hq
  obtain ⟨hP, hQ⟩ := (Prod.mk.injEq _ _ _ _).mp (Except.ok.inj h)
  rw [← hP, ← hQ]
  rw [z1, z3] at ha
  obtain ⟨o, o1, o2⟩ := Sty.circle_ok hhull ho (fun i hi => mul_nonneg (hs i hi) (by positivity)) hes
    (Sty.fillColor_get hec) (Sty.fillColor_get hfc) ha
  refine ⟨q, pos, hq, Sty.solid_places hpos, ?_, rfl, o, o1, o2⟩
  have := Sty.vertices_of (pos := pos) (font := z.font) (arrows := []) z1 z2 hl (Sty.fillColor_get hvc)
  rw [z4] at this ⊢
  exact this

/-- C103 fails for the font size of `draw_hypergraph` and of `draw_graph` with circles: it has no effect. -/
theorem C103_font_size_false (R : Rand) (hull : List Pt → Except Err (List Nat)) (order : List Nat) (A : DrawArgs)
    (f : Option ℝ) (n numE : Nat) (es : List (Nat × Nat)) (hs : List (List Nat)) :
    drawCircles R hull order { A with font := f } n numE es = drawCircles R hull order A n numE es ∧
    drawHypergraph R hull order { A with font := f } n hs = drawHypergraph R hull order A n hs := ⟨rfl, rfl⟩

/-- C103. The default sizes and widths are positive and shrink with the number of vertices and edges. -/
theorem C103_defaults (n : Nat) :
    0 < dfltVSize n ∧ dfltVSize (n + 1) < dfltVSize n ∧ dfltVSize n ≤ 1 / 30 ∧
    0 < dfltVLine n ∧ dfltVLine (n + 1) < dfltVLine n ∧ dfltVLine n ≤ 1 ∧
    0 < dfltELine n ∧ dfltELine (n + 1) < dfltELine n ∧ dfltELine n ≤ 1 ∧
    0 < dfltFont n ∧ dfltFont (n + 1) < dfltFont n ∧ dfltFont n ≤ 20 := by
  have hn : (0 : ℝ) ≤ n := Nat.cast_nonneg n
  have he : ∀ c : ℝ, 0 < c → 0 < Real.exp (-(n : ℝ) / c) ∧ Real.exp (-((n + 1 : Nat) : ℝ) / c) < Real.exp (-(n : ℝ) / c) ∧
      Real.exp (-(n : ℝ) / c) ≤ 1 := by
    intro c hc
    refine ⟨Real.exp_pos _, Real.exp_lt_exp.2 ?_, ?_⟩
    · push_cast
      exact div_lt_div_of_pos_right (by linarith) hc
    · rw [Real.exp_le_one_iff]
      exact div_nonpos_of_nonpos_of_nonneg (by linarith) hc.le
  obtain ⟨a1, a2, a3⟩ := he 50 (by norm_num)
  obtain ⟨b1, b2, b3⟩ := he 120 (by norm_num)
  obtain ⟨c1, c2, c3⟩ := he 100 (by norm_num)
  have hs : 0 < Real.sqrt ((n : ℝ) + 10) := Real.sqrt_pos.2 (by linarith)
  refine ⟨?_, ?_, ?_, a1, a2, a3, b1, b2, b3, ?_, ?_, ?_⟩
  · unfold dfltVSize; positivity
  · unfold dfltVSize
    have : Real.sqrt ((n : ℝ) + 10) < Real.sqrt (((n + 1 : Nat) : ℝ) + 10) :=
      Real.sqrt_lt_sqrt (by linarith) (by push_cast; linarith)
    have := one_div_lt_one_div_of_lt hs this
    linarith
  · unfold dfltVSize
    have : (3 : ℝ) ≤ Real.sqrt ((n : ℝ) + 10) := Real.le_sqrt_of_sq_le (by linarith)
    have := one_div_le_one_div_of_le (by norm_num) this
    linarith
  · unfold dfltFont; linarith
  · unfold dfltFont; linarith
  · unfold dfltFont; linarith

/-! ### Examples -/

namespace Sty

/-- the places of the two vertices of the example -/
noncomputable def exPos (i : Nat) : Pt := (if i = 0 then 1 / 10 else 9 / 10, if i = 0 then 1 / 10 else 9 / 10)

theorem exPos_ne : exPos 0 ≠ exPos 1 := by
  intro h
  have := congrArg Prod.fst h
  norm_num [exPos] at this

theorem ex_solid {q : Nat → NPt} (h : ∀ i, q i = (some (exPos i).1, some (exPos i).2)) : solid 2 q = .ok exPos := by
  unfold solid
  rw [if_pos (fun i _ => by rw [h]; exact ⟨rfl, rfl⟩)]
  congr 1
  funext i
  rw [h]
  rfl

theorem ex_outline {r : ℝ} (rad : Nat → ℝ) (h0 : rad 0 = r) (h1 : rad 1 = r) :
    ∃ o, hullOutline exPos rad [0, 1] = .ok o := by
  have hn : ∀ p : Pt, |(0 : ℝ)| ≤ norm2 p := fun p => by rw [abs_zero]; exact Vi.norm2_nonneg _
  obtain ⟨a, ha⟩ := (C98_exists_partial exPos rad 0 1).mpr ⟨exPos_ne, by rw [h0, h1, sub_self]; exact hn _⟩
  obtain ⟨b, hb⟩ := (C98_exists_partial exPos rad 1 0).mpr ⟨exPos_ne.symm, by rw [h0, h1, sub_self]; exact hn _⟩
  unfold hullOutline
  have : collectE ([0, 1].zip ([0, 1].rotate 1)) (fun p => hullLine exPos rad p.1 p.2) = .ok [a, b] := by
    show collectE [(0, 1), (1, 0)] _ = _
    simp only [collectE, ha, hb]
    rfl
  rw [this]
  exact ⟨_, rfl⟩

/-- no forces: strengths zero -/
noncomputable def exArgs : DrawArgs :=
  { pushV := some 0, pullE := some 0, pullC := some 0, pushE := some 0, label := some ["a", "b"], vSize := .list [1, 1] }

theorem ex_size (m : Nat) : ∃ z, defaultSize 2 m exArgs.vSize exArgs.vLine exArgs.eLine (some 1) = .ok z ∧
    z.v = [dfltVSize 2 * 1, dfltVSize 2 * 1] ∧ z.eLine = List.replicate m (dfltELine m * 1) := ⟨_, rfl, rfl, rfl⟩

theorem ex_circles (hull : List Pt → Except Err (List Nat)) {z : Sizes} (hz1 : z.v = [dfltVSize 2 * 1, dfltVSize 2 * 1])
    (hz2 : z.eLine = List.replicate 1 (dfltELine 1 * 1)) :
    ∃ Q, drawCircleEdge hull [0] exPos z.v [[0, 1]] [.name "gray"]
      [.name "whitesmoke"] z.eLine = .ok Q := by
  obtain ⟨o, ho⟩ := ex_outline (fun v => z.v.getD v 0 + z.v.getD v 0 * (3 / 10)) (r := dfltVSize 2 * 1 + dfltVSize 2 * 1 * (3 / 10)) (by rw [hz1]; rfl)
    (by rw [hz1]; rfl)
  have hh : hullLayout hull [0] [[0, 1]] exPos (fun v => z.v.getD v 0) =
      .ok [(0, o)] := by
    unfold hullLayout hullLoop
    have : edgeOutline hull exPos (fun v => z.v.getD v 0 + z.v.getD v 0 * (3 / 10))
        ([[0, 1]].getD 0 []) = .ok o := ho
    rw [this]
    rfl
  have hst : styleAt [.name "gray"] [.name "whitesmoke"] z.eLine 0 = .ok ⟨dfltELine 1 * 1, .name "whitesmoke", .name "gray"⟩ := by
    rw [hz2]; rfl
  unfold drawCircleEdge
  rw [hh]
  have e1 : ∀ f : Nat → Except Err (List (List (Pt × Pt) × Style)), (∃ x, f 0 = .ok x) →
      ∃ x, collectE (List.range 1) f = .ok x := by
    rintro f ⟨x, hx⟩
    exact ⟨[x], by show collectE [0] f = _; simp only [collectE, hx]; rfl⟩
  have e2 : ∀ f : Nat → Except Err (List (Arc × Style)), (∃ x, f 0 = .ok x) →
      ∃ x, collectE (List.range 1) f = .ok x := by
    rintro f ⟨x, hx⟩
    exact ⟨[x], by show collectE [0] f = _; simp only [collectE, hx]; rfl⟩
  obtain ⟨x, hx⟩ := e1 (fun k => do
    let o ← (([(0, o)] : List (Nat × Outline)).lookup k).elim (.error .type) .ok
    if o.lines.isEmpty then .ok [] else
      (styleAt [.name "gray"] [.name "whitesmoke"] z.eLine k).map fun s => [(o.lines, s)]) (by
      show ∃ x, (if o.lines.isEmpty then Except.ok [] else _) = _
      split
      · exact ⟨_, rfl⟩
      · rw [hst]; exact ⟨_, rfl⟩)
  obtain ⟨y, hy⟩ := e2 (fun k => do
    let o ← (([(0, o)] : List (Nat × Outline)).lookup k).elim (.error .type) .ok
    collectE o.arcs fun a => (styleAt [.name "gray"] [.name "whitesmoke"] z.eLine k).map fun s => (a, s)) (by
      show ∃ x, collectE o.arcs _ = _
      rw [hst]
      exact ⟨_, collectE_ok fun a _ => rfl⟩)
  refine ⟨⟨x.flatten, y.flatten⟩, ?_⟩
  show (collectE (List.range 1) _ >>= _) = _
  rw [hx]
  show (collectE (List.range 1) _ >>= _) = _
  rw [hy]
  rfl

theorem ex_draw_circles (hull : List Pt → Except Err (List Nat)) :
    ∃ P Q, drawCircles Vi.exRand hull [0] exArgs 2 1 [(0, 1)] = .ok (P, Q) := by
  obtain ⟨z, hz, hz1, hz2⟩ := ex_size 1
  have hq : forceLayout Vi.exRand 2 ([(0, 1)].map fun e : Nat × Nat => [(e.1 : Int), (e.2 : Int)])
      (fillStrength exArgs.pushV (6 / 1000)) none (fillStrength exArgs.pullE (45 / 1000))
      (fillStrength exArgs.pullC (1 / 100)) =
      .ok fun i => (rescale 2 (fun i => if i = 0 then -5 else 0) i, rescale 2 (fun i => if i = 0 then -5 else 0) i) := by
    simp only [fillStrength, exArgs, zero_mul]
    exact Vi.exRand_layout
  have hc := ex_circles hull hz1 hz2
  obtain ⟨Q, hQ⟩ := hc
  unfold drawCircles
  have hn : need (1 > 0) Err.assertion = .ok () := rfl
  have hc1 : fillColor exArgs.vColor (.name "r") 2 = .ok [.name "r", .name "r"] := rfl
  have hc2 : fillColor exArgs.eColor (.name "gray") 1 = .ok [.name "gray"] := rfl
  have hc3 : fillColor exArgs.eFill (.name "whitesmoke") 1 = .ok [.name "whitesmoke"] := rfl
  have hz' : defaultSize 2 ([(0, 1)] : List (Nat × Nat)).length exArgs.vSize exArgs.vLine exArgs.eLine (some 1) = .ok z := hz
  rw [hn, hc1, hc2, hc3, hz', hq]
  show ∃ P Q, (solid 2 _ >>= _) = Except.ok (P, Q)
  rw [ex_solid fun i => by rw [Vi.exRand_rescale]; rfl]
  show ∃ P Q, (drawCircleEdge _ _ _ _ _ _ _ _ >>= _) = Except.ok (P, Q)
  have hQ' : drawCircleEdge hull [0] exPos z.v ([(0, 1)].map fun e : Nat × Nat => [e.1, e.2]) [.name "gray"]
      [.name "whitesmoke"] z.eLine = .ok Q := hQ
  rw [hQ']
  exact ⟨_, _, rfl⟩

/-- without forces nothing moves, also if the single edge repels others -/
theorem simulate_still_edge {n : Nat} {H : Nat → Nat → Bool} (hH : ∀ e < 1, ∃ i < n, H i e = true) (j : Nat → Jitter)
    {nums : Nat} {c : Pt} (pos : Nat → Pt) (hpos : ¬ ∃ i < n, ∃ j < n, i ≠ j ∧ pos i = pos j) :
    simulate { nums := nums, attraction := some 0, repulsion := some [0], edgeRepulsion := some 0
               gravity := some [0], centers := [c] } n 1 H j pos = .ok pos := by
  have hr : ∃ f, repulsion n pos = .ok f := ⟨_, by unfold repulsion; rw [if_neg hpos]⟩
  obtain ⟨f, hf⟩ := hr
  have hr' : ∃ f, repulsion 1 (eCenter n H pos) = .ok f :=
    ⟨_, by unfold repulsion; rw [if_neg]; rintro ⟨a, ha, b, hb, hab, _⟩; omega⟩
  obtain ⟨f', hf'⟩ := hr'
  have hforce : ∀ s : Sim, s.attraction = some 0 → s.repulsion = some [0] → s.edgeRepulsion = some 0 →
      s.gravity = some [0] → s.centers = [c] → force s n 1 H (j 0) pos = .ok fun _ => 0 := by
    intro s h1 h2 h3 h4 h5
    unfold force
    rw [h1, h2, h3, h4, Vi.need_pos hH, hf, hf']
    simp only [bind, Except.bind, pure, Except.pure]
    congr 1
    funext i
    have hg : gravityAt s [0] (j 0).gravity pos i = 0 := by
      unfold gravityAt
      refine Finset.sum_eq_zero fun c hc => ?_
      have : ([0] : List ℝ).getD c 0 = 0 := by
        match c with
        | 0 => rfl
        | c + 1 => rfl
      rw [this, zero_mul, zero_smul]
    have hk : repFactor s [0] i = 0 := by
      unfold repFactor
      rw [h5]
      rfl
    rw [hg, hk]
    simp
  unfold simulate
  rw [simLoop]
  unfold step
  rw [hforce _ rfl rfl rfl rfl rfl]
  simp only [bind, Except.bind, pure, Except.pure]
  have hc : clip 0 = 0 := by
    unfold clip
    norm_num
  simp [hc]

theorem ex_layout_edge : forceLayout Vi.exRand 2 [[0, 1]] 0 (some 0) 0 0 =
    .ok fun i => (rescale 2 (fun i => if i = 0 then -5 else 0) i, rescale 2 (fun i => if i = 0 then -5 else 0) i) := by
  have hi : incidence 2 [[0, 1]] = .ok (incAt 2 [[0, 1]]) := if_pos (by decide)
  have hs := simulate_still_edge (nums := 2) (c := (0, 0)) (n := 2) (H := incAt 2 [[0, 1]])
    (by
      intro e he
      exact ⟨0, by omega, by rw [show e = 0 by omega]; decide⟩) Vi.exRand.jit (initPos Vi.exRand.init (0, 0) 5)
    (by
      rintro ⟨i, hi, j, hj, hij, h⟩
      rw [Vi.exRand_pos] at h
      match i, j with
      | 0, 0 => exact hij rfl
      | 1, 1 => exact hij rfl
      | 0, 1 => simp at h
      | 1, 0 => simp at h)
  unfold forceLayout
  have h1 : need (¬ (2 = 0)) Err.value = .ok () := rfl
  rw [h1, hi]
  show (simulate _ 2 1 _ _ _ >>= _) = _
  rw [hs, Vi.exRand_pos]
  show Except.ok _ = Except.ok _
  congr 1
  funext i
  congr 1 <;> (congr 1; funext k; by_cases hk : k = 0 <;> simp [hk])

theorem ex_draw_hypergraph (hull : List Pt → Except Err (List Nat)) :
    ∃ P Q, drawHypergraph Vi.exRand hull [0] exArgs 2 [[0, 1]] = .ok (P, Q) := by
  obtain ⟨z, hz, hz1, hz2⟩ := ex_size 1
  have hq : forceLayout Vi.exRand 2 ([[0, 1]].map fun e : List Nat => e.map fun v => (v : Int))
      (fillStrength exArgs.pushV (6 / 1000)) (some (fillStrength exArgs.pushE (8 / 1000)))
      (fillStrength exArgs.pullE (7 / 1000)) (fillStrength exArgs.pullC (1 / 1000)) =
      .ok fun i => (rescale 2 (fun i => if i = 0 then -5 else 0) i, rescale 2 (fun i => if i = 0 then -5 else 0) i) := by
    simp only [fillStrength, exArgs, zero_mul]
    exact ex_layout_edge
  obtain ⟨Q, hQ⟩ := ex_circles hull hz1 hz2
  unfold drawHypergraph
  have hn : need (([[0, 1]] : List (List Nat)).length > 0) Err.assertion = .ok () := rfl
  have hc1 : fillColor exArgs.vColor (.name "r") 2 = .ok [.name "r", .name "r"] := rfl
  have hc2 : fillColor exArgs.eColor (.name "gray") ([[0, 1]] : List (List Nat)).length = .ok [.name "gray"] := rfl
  have hc3 : fillColor exArgs.eFill (.name "whitesmoke") ([[0, 1]] : List (List Nat)).length = .ok [.name "whitesmoke"] := rfl
  have hz' : defaultSize 2 ([[0, 1]] : List (List Nat)).length exArgs.vSize exArgs.vLine exArgs.eLine (some 1) = .ok z := hz
  rw [hn, hc1, hc2, hc3, hz', hq]
  show ∃ P Q, (solid 2 _ >>= _) = Except.ok (P, Q)
  rw [ex_solid fun i => by rw [Vi.exRand_rescale]; rfl]
  show ∃ P Q, (drawCircleEdge _ _ _ _ _ _ _ _ >>= _) = Except.ok (P, Q)
  rw [hQ]
  exact ⟨_, _, rfl⟩

/-- the places of the two vertices of the bipartite example -/
noncomputable def exBiPos (i : Nat) : Pt := (if i = 0 then 9 / 10 else 1 / 10, if i = 0 then 1 / 10 else 9 / 10)

theorem exBi_pos : (fun i => if i < 1 then initPos Vi.exRand.init (5, 0) (9 / 2) i else
    initPos Vi.exRand.init (-5, 0) (9 / 2) i) = fun i => if i = 0 then (1 / 2, -(9 / 2)) else (-5, 0) := by
  funext i
  unfold initPos Vi.exRand
  dsimp only
  by_cases hi : i = 0
  · subst hi; norm_num
  · rw [if_neg (by omega), if_neg hi, if_neg hi]; norm_num

theorem exBi_x (i : Nat) : rescale (1 + 1) (fun i => if i = 0 then 1 / 2 else -5) i = some (exBiPos i).1 := by
  unfold rescale
  have h1 : maxTo (fun i => if i = 0 then (1 / 2 : ℝ) else -5) (1 + 1 - 1) = 1 / 2 := by norm_num [maxTo]
  have h2 : minTo (fun i => if i = 0 then (1 / 2 : ℝ) else -5) (1 + 1 - 1) = -5 := by norm_num [minTo]
  rw [h1, h2, if_neg (by norm_num)]
  by_cases hi : i = 0 <;> simp [hi, exBiPos] <;> norm_num

theorem exBi_y (i : Nat) : rescale (1 + 1) (fun i => if i = 0 then -(9 / 2) else 0) i = some (exBiPos i).2 := by
  unfold rescale
  have h1 : maxTo (fun i => if i = 0 then (-(9 / 2) : ℝ) else 0) (1 + 1 - 1) = 0 := by norm_num [maxTo]
  have h2 : minTo (fun i => if i = 0 then (-(9 / 2) : ℝ) else 0) (1 + 1 - 1) = -(9 / 2) := by norm_num [minTo]
  rw [h1, h2, if_neg (by norm_num)]
  by_cases hi : i = 0 <;> simp [hi, exBiPos] <;> norm_num

/-- no forces: strengths zero -/
noncomputable def exBiArgs : BiDrawArgs :=
  { pushU := some 0, pushV := some 0, pullE := some 0, pullU := some 0, pullV := some 0
    uLabel := some ["a"], vLabel := some ["b"], uSize := .list [2] }

theorem ex_layout_bi : bipartiteForceLayout Vi.exRand 1 1 [[0, 0]] 0 0 none 0 0 0 =
    .ok (fun i => (some (exBiPos i).1, some (exBiPos i).2), fun i => (some (exBiPos (1 + i)).1, some (exBiPos (1 + i)).2)) := by
  have hi : incidence (1 + 1) [[0, 0]] = .ok (incAt 2 [[0, 0]]) := if_pos (by decide)
  have hs := Vi.simulate_still (nums := 1) (cs := [(5, 0), (-5, 0)]) (n := 1 + 1) (m := 1) (H := incAt 2 [[0, 0]])
    (by
      intro e he
      exact ⟨0, by omega, by rw [show e = 0 by omega]; decide⟩) Vi.exRand.jit
      (fun i => if i = 0 then (1 / 2, -(9 / 2)) else (-5, 0))
    (by
      rintro ⟨i, hi, j, hj, hij, h⟩
      match i, j with
      | 0, 0 => exact hij rfl
      | 1, 1 => exact hij rfl
      | 0, 1 => norm_num at h
      | 1, 0 => norm_num at h)
  unfold bipartiteForceLayout
  have h1 : need (¬ (1 + 1 = 0)) Err.value = .ok () := rfl
  rw [h1, hi, exBi_pos]
  show (simulate _ (1 + 1) 1 _ _ _ >>= _) = _
  rw [hs]
  have hx : (fun i : Nat => (if i = 0 then ((1 / 2, -(9 / 2)) : Pt) else (-5, 0)).1) = fun i => if i = 0 then 1 / 2 else -5 := by
    funext i; split <;> rfl
  have hy : (fun i : Nat => (if i = 0 then ((1 / 2, -(9 / 2)) : Pt) else (-5, 0)).2) = fun i => if i = 0 then -(9 / 2) else 0 := by
    funext i; split <;> rfl
  show Except.ok (_, _) = Except.ok (_, _)
  simp only [hx, hy, exBi_x, exBi_y]

theorem ex_draw_bigraph : ∃ P, drawBigraph Vi.exRand exBiArgs 1 1 [(0, 0)] = .ok P := by
  have hz : ∃ zu zv, defaultBipartiteSize 1 1 1 exBiArgs.uSize exBiArgs.uLine exBiArgs.vSize exBiArgs.vLine exBiArgs.eLine
      exBiArgs.uFont exBiArgs.vFont = .ok (zu, zv) ∧ zu.v.length = 1 ∧ zv.v.length = 1 ∧ zu.eLine.length = 1 :=
    ⟨_, _, rfl, rfl, rfl, rfl⟩
  obtain ⟨zu, zv, hz, h1, h2, h3⟩ := hz
  have hz' : defaultBipartiteSize 1 1 ([(0, 0)] : List (Nat × Nat)).length exBiArgs.uSize exBiArgs.uLine exBiArgs.vSize
      exBiArgs.vLine exBiArgs.eLine exBiArgs.uFont exBiArgs.vFont = .ok (zu, zv) := hz
  have hq : bipartiteForceLayout Vi.exRand 1 1 ([(0, 0)].map fun e : Nat × Nat => [(e.1 : Int), (e.2 : Int)])
      (fillStrength exBiArgs.pushU (5 / 1000)) (fillStrength exBiArgs.pushV (5 / 1000)) none
      (fillStrength exBiArgs.pullE (3 / 100)) (fillStrength exBiArgs.pullU (4 / 100)) (fillStrength exBiArgs.pullV (4 / 100)) =
      .ok (fun i => (some (exBiPos i).1, some (exBiPos i).2), fun i => (some (exBiPos (1 + i)).1, some (exBiPos (1 + i)).2)) := by
    simp only [fillStrength, exBiArgs, zero_mul]
    exact ex_layout_bi
  unfold drawBigraph
  have hn : need (([(0, 0)] : List (Nat × Nat)).length > 0) Err.assertion = .ok () := rfl
  have hc1 : fillColor exBiArgs.uColor (.name "m") 1 = .ok [.name "m"] := rfl
  have hc2 : fillColor exBiArgs.vColor (.name "r") 1 = .ok [.name "r"] := rfl
  have hc3 : fillColor exBiArgs.eColor (.name "gray") ([(0, 0)] : List (Nat × Nat)).length = .ok [.name "gray"] := rfl
  rw [hn, hc1, hc2, hc3, hz', hq]
  have hsol : ∀ q : Nat → NPt, (∀ i, q i = (some (exBiPos i).1, some (exBiPos i).2)) → solid (1 + 1) q = .ok exBiPos := by
    intro q hq
    unfold solid
    rw [if_pos (fun i _ => by rw [hq]; exact ⟨rfl, rfl⟩)]
    congr 1
    funext i
    rw [hq]
    rfl
  have hs := hsol (fun i => if i < 1 then (some (exBiPos i).1, some (exBiPos i).2) else
    (some (exBiPos (1 + (i - 1))).1, some (exBiPos (1 + (i - 1))).2)) fun i => by
      split
      · rfl
      · rw [show 1 + (i - 1) = i by omega]
  have hl : ∃ a, drawLineEdge exBiPos (zu.v ++ zv.v) ([(0, 0)].map fun e : Nat × Nat => (e.1, e.2 + 1)) false
      [Col.name "gray"] zu.eLine = .ok a := by
    have hlen : (zu.v ++ zv.v).length = 2 := by rw [List.length_append, h1, h2]
    have : ∃ a, lineEdge exBiPos (zu.v ++ zv.v) false [Col.name "gray"] zu.eLine 0 0 1 = .ok a := by
      unfold lineEdge
      rw [List.getElem?_eq_getElem (show 0 < (zu.v ++ zv.v).length by omega),
        List.getElem?_eq_getElem (show 1 < (zu.v ++ zv.v).length by omega),
        List.getElem?_eq_getElem (show 0 < zu.eLine.length by omega)]
      simp only [Option.elim, bind, Except.bind, List.getElem?_cons_zero]
      rw [if_neg]
      · exact ⟨_, rfl⟩
      · intro h
        have := congrArg Prod.fst (Vi.norm2_eq_zero.mp h)
        norm_num [exBiPos] at this
    obtain ⟨a, ha⟩ := this
    refine ⟨[a], ?_⟩
    unfold drawLineEdge
    simp only [List.map_cons, List.map_nil, List.zipIdx_cons, List.zipIdx_nil, collectE, Nat.zero_add, ha]
    rfl
  obtain ⟨a, ha⟩ := hl
  simp only [bind, Except.bind]
  rw [hs]
  dsimp only
  rw [ha]
  exact ⟨_, rfl⟩

end Sty

/-- a graph with one edge, drawn with an arrow: the label of the first vertex -/
example : ∃ P : Picture, (P.labels.map (·.text)) = ["a", "b"] ∧ P.arrows.length = 1 := by
  obtain ⟨P, h⟩ := Vi.exRand_draw
  obtain ⟨_, _, _, _, hv, ha, _⟩ := C103_draw_graph_partial Vi.exRand true _ 2 [(0, 1)]
    (by intro l hl; rw [← Option.some.inj hl]; rfl) P h
  exact ⟨P, by rw [hv.labels]; rfl, ha⟩

/-- a bipartite graph with one edge: the vertex of the first side is drawn twice as large -/
example : ∃ P : Picture, (P.labels.map (·.text)) = ["a", "b"] ∧
    (P.discs.map (·.radius)) = [2 * (8 / 100 / Real.sqrt (1 + 12)), 1 * (8 / 100 / Real.sqrt (1 + 12))] := by
  obtain ⟨P, h⟩ := Sty.ex_draw_bigraph
  obtain ⟨_, _, _, _, _, hv, _⟩ := C103_draw_bigraph_partial Vi.exRand Sty.exBiArgs 1 1 [(0, 0)]
    (by intro l hl; rw [← Option.some.inj hl]; rfl) (by intro l hl; rw [← Option.some.inj hl]; rfl)
    (by intro cs h; cases h) P h
  refine ⟨P, by rw [hv.labels]; rfl, ?_⟩
  rw [hv.discs]
  simp [List.range_succ, Spec.sides, Spec.factor, Sty.exBiArgs]

/-- a hypergraph with one hyperedge: its outline has the default colours -/
example : ∃ (P : Picture) (Q : Patches), P.discs.length = 2 ∧ ∀ a ∈ Q.arcs, a.2.fill = .name "whitesmoke" := by
  obtain ⟨P, Q, h⟩ := Sty.ex_draw_hypergraph fun _ => .error .value
  obtain ⟨_, _, _, _, hv, _, o, _, st, h1, _, ha⟩ := C103_draw_hypergraph_partial Vi.exRand (fun _ => .error .value)
    (fun _ _ h => by cases h) [0] Sty.exArgs 2 [[0, 1]] (by decide) (List.Perm.refl _) (fun i hi => by
      have : i = 0 ∨ i = 1 := by omega
      rcases this with rfl | rfl <;> simp [Spec.factor, Sty.exArgs]) (by intro l hl; rw [← Option.some.inj hl]; rfl) P Q h
  refine ⟨P, Q, by rw [hv.discs]; simp, ?_⟩
  intro a haQ
  rw [ha] at haQ
  obtain ⟨k, hk, hm⟩ := List.mem_flatMap.1 haQ
  obtain ⟨x, hx, rfl⟩ := List.mem_map.1 hm
  obtain ⟨_, h2, _⟩ := h1 k (List.mem_range.1 hk) (Or.inr (List.ne_nil_of_mem hx))
  exact Option.some.inj h2

/-- a graph with one edge, drawn with circles -/
example : ∃ (P : Picture) (Q : Patches), P.discs.length = 2 ∧ ∀ o, Spec.Styled 1 o
    (fun k => Spec.factor Sty.exArgs.eLine k * Real.exp (-(1 : Nat) / 120)) (fun _ => some (.name "whitesmoke"))
    (fun _ => some (.name "gray")) Q → Q.arcs.length = (o 0).arcs.length := by
  obtain ⟨P, Q, h⟩ := Sty.ex_draw_circles fun _ => .error .value
  obtain ⟨_, _, _, _, hv, _⟩ := C103_draw_circles_partial Vi.exRand (fun _ => .error .value) (fun _ _ h => by cases h) [0]
    Sty.exArgs 2 [(0, 1)] (by decide) (List.Perm.refl _) (fun i hi => by
      have : i = 0 ∨ i = 1 := by omega
      rcases this with rfl | rfl <;> simp [Spec.factor, Sty.exArgs]) (by intro l hl; rw [← Option.some.inj hl]; rfl) P Q h
  refine ⟨P, Q, by rw [hv.discs]; simp, ?_⟩
  rintro o ⟨st, _, _, ha⟩
  rw [ha]
  simp

end Props
end DHG
