import Verif.Props.SideBySide
import Verif.Props.ConvertGraphs

/-!
# Several hypergraphs in one object (C129)
-/

set_option linter.unusedSectionVars false
set_option autoImplicit false

namespace DHG
namespace Props
open Finset Hyper Hy Loca EditH

variable {K : Type} [Field K] [LinearOrder K] [PyReal K]

namespace SideH

/-- `l₁` is the part of `l` whose `n` vertices are counted from `o` -/
structure Piece (o n : Nat) (l₁ l : List (List Int × K)) : Prop where
  rng : Rng n l₁
  sums : ∀ i, i < n → ∀ φ : List Int → K, hsum l (o + i) φ = hsum l₁ i fun e => φ (e.map (· + (o : Int)))

theorem hsum_perm {l l' : List (List Int × K)} (h : l.Perm l') (i : Nat) (φ : List Int → K) : hsum l i φ = hsum l' i φ :=
  hsum_congr (h.filter _) fun _ _ _ => rfl

theorem hsum_append (l l' : List (List Int × K)) (i : Nat) (φ : List Int → K) :
    hsum (l ++ l') i φ = hsum l i φ + hsum l' i φ := by
  unfold hsum Spec.hyperedgesAt
  rw [List.filter_append, List.map_append, List.sum_append]

theorem hsum_out {l : List (List Int × K)} {i : Nat} (h : ∀ e ∈ l, (i : Int) ∉ e.1) (φ : List Int → K) : hsum l i φ = 0 := by
  unfold hsum Spec.hyperedgesAt
  rw [List.filter_eq_nil_iff.2 fun e he => by simpa using h e he]
  rfl

theorem hsum_shift (l : List (List Int × K)) (o i : Nat) (φ : List Int → K) :
    hsum (l.map fun e => (e.1.map (· + (o : Int)), e.2)) (o + i) φ = hsum l i fun e => φ (e.map (· + (o : Int))) := by
  unfold hsum Spec.hyperedgesAt
  rw [List.filter_map, List.map_map]
  have : ((fun e : List Int × K => decide (((o + i : Nat) : Int) ∈ e.1)) ∘ fun e => (e.1.map (· + (o : Int)), e.2)) =
      fun e : List Int × K => decide ((i : Int) ∈ e.1) := by
    funext e
    simp only [Function.comp, decide_eq_decide, List.mem_map]
    constructor
    · rintro ⟨v, hv, h⟩
      have : v = i := by push_cast at h; omega
      rwa [← this]
    · intro h
      exact ⟨i, h, by push_cast; omega⟩
  rw [this]
  rfl

theorem pieces {n m : Nat} {l₁ l₂ l : List (List Int × K)} (h₁ : Rng n l₁) (h₂ : Rng m l₂) (h : Spec.HypergraphsBeside n l₁ l₂ l) :
    Piece 0 n l₁ l ∧ Piece n m l₂ l := by
  refine ⟨⟨h₁, fun i hi φ => ?_⟩, ⟨h₂, fun i hi φ => ?_⟩⟩
  · rw [Nat.zero_add, hsum_perm h, hsum_append, hsum_out (l := l₂.map _), add_zero]
    · simp
    · intro e he
      obtain ⟨e', he', rfl⟩ := List.mem_map.1 he
      intro hm
      obtain ⟨v, hv, hv'⟩ := List.mem_map.1 hm
      have := (h₂ e' he').2 v hv
      omega
  · rw [hsum_perm h, hsum_append, hsum_out (l := l₁), zero_add, hsum_shift]
    intro e he hm
    have := (h₁ e he).2 _ hm
    push_cast at this
    omega

variable {o n : Nat} {l₁ l : List (List Int × K)}

theorem Piece.deg (h : Piece o n l₁ l) {i : Nat} (hi : i < n) : Spec.hDeg l (o + i) = Spec.hDeg l₁ i := by
  rw [deg_hsum, deg_hsum, h.sums i hi]

theorem members {e : List Int} (he : ∀ v ∈ e, 0 ≤ v ∧ v < (n : Int)) (f f₁ : Nat → K) (hf : ∀ j, j < n → f (o + j) = f₁ j) :
    ((e.map (· + (o : Int))).map fun v => f v.toNat).sum = (e.map fun v => f₁ v.toNat).sum := by
  rw [List.map_map]
  congr 1
  refine List.map_congr_left fun v hv => ?_
  have := he v hv
  show f (v + (o : Int)).toNat = _
  rw [show (v + (o : Int)).toNat = o + v.toNat by omega]
  exact hf _ (by omega)

theorem Piece.val (h : Piece o n l₁ l) (m1 m2 : Bool) {X X₁ : Dense K} {i c : Nat} (hi : i < n)
    (hX : ∀ j, j < n → X.at_ (o + j) c = X₁.at_ j c) : EditH.val m1 m2 l X (o + i) c = EditH.val m1 m2 l₁ X₁ i c := by
  unfold EditH.val
  simp only [h.deg hi, h.sums i hi, List.length_map]
  rw [hsum_congr (φ' := fun e => if m1 = true then (e.map fun v => X₁.at_ v.toNat c).sum / (e.length : K) else
    (e.map fun v => X₁.at_ v.toNat c).sum) (List.Perm.refl _) fun e he _ => by
    rw [members (h.rng e he).2 (fun j => X.at_ j c) (fun j => X₁.at_ j c) hX]]

variable [IsStrictOrderedRing K]

theorem Piece.valS (h : Piece o n l₁ l) {X X₁ : Dense K} {i c : Nat} (hi : i < n)
    (hX : ∀ j, j < n → X.at_ (o + j) c = X₁.at_ j c) : EditH.valS l X (o + i) c = EditH.valS l₁ X₁ i c := by
  unfold EditH.valS
  rw [h.deg hi, h.sums i hi]
  congr 1
  refine hsum_congr (List.Perm.refl _) fun e he _ => ?_
  rw [List.length_map, members (h.rng e he).2 (fun j => negHalf (Spec.hDeg l j) * X.at_ j c)
    (fun j => negHalf (Spec.hDeg l₁ j) * X₁.at_ j c) fun j hj => by rw [h.deg hj, hX j hj]]

theorem total {r : HRaw K} (hi : Hyper.Inv r) (hr : InRange r) (h : Has none r) (hw : Spec.HNonneg (lstOf none r))
    {q : Spec.HCall K} (hq : Spec.PlainHCall q) {X : Dense K} (hX : X.rows = r.numV) : ∃ Y, Loca.evH q X r = .ok Y := by
  cases q with
  | v2v sc a =>
    obtain ⟨rfl, h1, h2, h3, h4, h5, h6, h7⟩ := hq
    obtain ⟨⟨A, hA, a1, a2, a3⟩, ⟨B, hB, b1, b2, b3⟩⟩ := evV2eAggr_spec hi hr h X hX a.keep1
    simp only [Loca.evH, Hyper.evV2v, chk_ok h, bind, Except.bind, h3, h4, h5, h6, h7]
    have key : ∀ (E : Dense K), E.rows = (lstOf none r).length →
        ∃ Y, evE2v none E (a.e2vAggr.getD a.aggr) none 0 a.keep2 r = .ok Y := by
      intro E hE
      obtain ⟨⟨A, hA, _⟩, ⟨B, hB, _⟩⟩ := evE2v_spec hi hr h E hE a.keep2
      rcases h2 with h2 | h2 <;> rw [h2]
      · exact ⟨A, hA⟩
      · exact ⟨B, hB⟩
    rcases h1 with h1 | h1 <;> rw [h1]
    · obtain ⟨E, hE, e1, _⟩ := evV2e_spec hi h hA a1
      rw [hE]
      exact key E e1
    · obtain ⟨E, hE, e1, _⟩ := evV2e_spec hi h hB b1
      rw [hE]
      exact key E e1
  | hgnn sc p keep =>
    obtain ⟨rfl, rfl⟩ := hq
    obtain ⟨L, hL, l⟩ := evLHGNN_spec hi hr h hw
    obtain ⟨Y, hY⟩ := Sp.mmD_ok (P := L) (X := X) (l.cols.trans hX.symm)
    refine ⟨Y, ?_⟩
    simp only [Loca.evH, evSmooth, hL, Graph.evDrop, lt_self_iff_false, if_false, bind, Except.bind, hY]

variable {r r₁ r₂ : HRaw K}

theorem piece_step (hi : Hyper.Inv r) (hr : InRange r) (h : Has none r) (hw : Spec.HNonneg (lstOf none r))
    (hi₁ : Hyper.Inv r₁) (hr₁ : InRange r₁) (h₁ : Has none r₁) (hw₁ : Spec.HNonneg (lstOf none r₁)) {o : Nat}
    (hle : o + r₁.numV ≤ r.numV) (hp : Piece o r₁.numV (lstOf none r₁) (lstOf none r)) {q : Spec.HCall K}
    (hq : Spec.PlainHCall q) {X X₁ Y Y₁ : Dense K} (hXr : X.rows = r.numV) (hXr₁ : X₁.rows = r₁.numV) (hc : X.cols = X₁.cols)
    (hX : ∀ i c, i < r₁.numV → c < X.cols → X.at_ (o + i) c = X₁.at_ i c)
    (hY : Loca.evH q X r = .ok Y) (hY₁ : Loca.evH q X₁ r₁ = .ok Y₁) :
    Y.rows = r.numV ∧ Y₁.rows = r₁.numV ∧ Y.cols = Y₁.cols ∧
      ∀ i c, i < r₁.numV → c < Y.cols → Y.at_ (o + i) c = Y₁.at_ i c := by
  cases q with
  | v2v sc a =>
    obtain rfl : sc = none := hq.1
    obtain ⟨y1, y2, y3⟩ := v2v_val hi hr h hq hXr hY
    obtain ⟨z1, z2, z3⟩ := v2v_val hi₁ hr₁ h₁ hq hXr₁ hY₁
    refine ⟨y1, z1, y2.trans (hc.trans z2.symm), fun i c hlt hcl => ?_⟩
    rw [y3 _ c (by omega), z3 i c hlt]
    exact hp.val _ _ hlt fun j hj => hX j c hj (y2 ▸ hcl)
  | hgnn sc p keep =>
    obtain ⟨rfl, rfl⟩ := hq
    obtain ⟨y1, y2, y3⟩ := smooth_val hi hr h hw hY
    obtain ⟨z1, z2, z3⟩ := smooth_val hi₁ hr₁ h₁ hw₁ hY₁
    refine ⟨y1, z1, y2.trans (hc.trans z2.symm), fun i c hlt hcl => ?_⟩
    rw [y3 _ c (by omega), z3 i c hlt]
    exact hp.valS hlt fun j hj => hX j c hj (y2 ▸ hcl)

theorem nets (hi : Hyper.Inv r) (hr : InRange r) (h : Has none r) (hw : Spec.HNonneg (lstOf none r))
    (hi₁ : Hyper.Inv r₁) (hr₁ : InRange r₁) (h₁ : Has none r₁) (hw₁ : Spec.HNonneg (lstOf none r₁))
    (hi₂ : Hyper.Inv r₂) (hr₂ : InRange r₂) (h₂ : Has none r₂) (hw₂ : Spec.HNonneg (lstOf none r₂))
    (hn : r.numV = r₁.numV + r₂.numV) (p₁ : Piece 0 r₁.numV (lstOf none r₁) (lstOf none r))
    (p₂ : Piece r₁.numV r₂.numV (lstOf none r₂) (lstOf none r)) :
    ∀ (ls : List (Spec.Layer K (Spec.HCall K))), (∀ q, .call q ∈ ls → Spec.PlainHCall q) →
    ∀ {X X₁ X₂ : Dense K}, X₁.rows = r₁.numV → X₂.rows = r₂.numV → Spec.Above X₁ X₂ X →
    ∃ Y Y₁ Y₂, evNet Loca.evH ls X r = .ok Y ∧ evNet Loca.evH ls X₁ r₁ = .ok Y₁ ∧ evNet Loca.evH ls X₂ r₂ = .ok Y₂ ∧
      Spec.Above Y₁ Y₂ Y
  | [], _, X, X₁, X₂, _, _, hX => ⟨X, X₁, X₂, rfl, rfl, rfl, hX⟩
  | .rows cols f :: ls, hq, X, X₁, X₂, e₁, e₂, hX => by
    refine nets hi hr h hw hi₁ hr₁ h₁ hw₁ hi₂ hr₂ h₂ hw₂ hn p₁ p₂ ls (fun q h => hq q (List.mem_cons_of_mem _ h))
      (X := Spec.mapRows cols f X) (X₁ := Spec.mapRows cols f X₁) (X₂ := Spec.mapRows cols f X₂) e₁ e₂
      ⟨hX.rows, rfl, rfl, fun i c hi _ => ?_, fun i c hi _ => ?_⟩
    · show f _ c = f _ c
      rw [← hX.cols₁]
      congr 1
      exact List.map_congr_left fun c hc => hX.upper i c hi (List.mem_range.1 hc)
    · show f _ c = f _ c
      rw [← hX.cols₂]
      congr 1
      exact List.map_congr_left fun c hc => hX.lower i c hi (List.mem_range.1 hc)
  | .call q :: ls, hq, X, X₁, X₂, e₁, e₂, hX => by
    have hq' := hq q (List.mem_cons_self ..)
    have hXr : X.rows = r.numV := by rw [hX.rows, e₁, e₂, hn]
    obtain ⟨Z, z⟩ := total hi hr h hw hq' hXr
    obtain ⟨Z₁, z₁⟩ := total hi₁ hr₁ h₁ hw₁ hq' e₁
    obtain ⟨Z₂, z₂⟩ := total hi₂ hr₂ h₂ hw₂ hq' e₂
    obtain ⟨a1, a2, a3, a4⟩ := piece_step hi hr h hw hi₁ hr₁ h₁ hw₁ (by omega) p₁ hq' hXr e₁ hX.cols₁
      (fun i c hi hc => by rw [Nat.zero_add]; exact hX.upper i c (e₁ ▸ hi) hc) z z₁
    obtain ⟨b1, b2, b3, b4⟩ := piece_step hi hr h hw hi₂ hr₂ h₂ hw₂ (by omega) p₂ hq' hXr e₂ hX.cols₂
      (fun i c hi hc => by rw [← e₁]; exact hX.lower i c (e₂ ▸ hi) hc) z z₂
    obtain ⟨Y, Y₁, Y₂, y, y₁, y₂, k⟩ := nets hi hr h hw hi₁ hr₁ h₁ hw₁ hi₂ hr₂ h₂ hw₂ hn p₁ p₂ ls
      (fun q h => hq q (List.mem_cons_of_mem _ h)) (X := Z) (X₁ := Z₁) (X₂ := Z₂) a2 b2
      ⟨by rw [a1, a2, b2, hn], a3, b3, fun i c hi hc => by
        have := a4 i c (a2 ▸ hi) hc
        rwa [Nat.zero_add] at this, fun i c hi hc => by rw [a2]; exact b4 i c (b2 ▸ hi) hc⟩
    exact ⟨Y, Y₁, Y₂, by simp only [evNet, z, bind, Except.bind]; exact y,
      by simp only [evNet, z₁, bind, Except.bind]; exact y₁, by simp only [evNet, z₂, bind, Except.bind]; exact y₂, k⟩

end SideH

/-- C129. Two hypergraphs put side by side in one hypergraph: a network made of message passing calls and functions on the
rows computes for the one hypergraph what it computes for the two hypergraphs separately. -/
theorem C129_hypergraph_networks [IsStrictOrderedRing K] {b₁ b₂ b : Bool} {s₁ s₂ s : HSt K} (hs₁ : Built Proper b₁ s₁)
    (hs₂ : Built Proper b₂ s₂) (hs : Built Proper b s) (c₁ : Spec.HasScope s₁ none) (c₂ : Spec.HasScope s₂ none)
    (c : Spec.HasScope s none) {n m : Nat} (hn : (ask .numV s₁).1 = .ok (.num n)) (hm : (ask .numV s₂).1 = .ok (.num m))
    (hN : (ask .numV s).1 = .ok (.num (n + m))) (hw₁ : Spec.HNonneg (Spec.hListing s₁ none))
    (hw₂ : Spec.HNonneg (Spec.hListing s₂ none))
    (hl : Spec.HypergraphsBeside n (Spec.hListing s₁ none) (Spec.hListing s₂ none) (Spec.hListing s none))
    (ls : List (Spec.Layer K (Spec.HCall K))) (hp : ∀ q, .call q ∈ ls → Spec.PlainHCall q) {X₁ X₂ X : Dense K}
    (hX₁ : X₁.rows = n) (hX₂ : X₂.rows = m) (hX : Spec.Above X₁ X₂ X) :
    ∃ Y₁ Y₂ Y, (Spec.net Spec.HCall.run ls X₁ s₁).1 = .ok Y₁ ∧ (Spec.net Spec.HCall.run ls X₂ s₂).1 = .ok Y₂ ∧
      (Spec.net Spec.HCall.run ls X s).1 = .ok Y ∧ Spec.Above Y₁ Y₂ Y := by
  have e₁ := Hy.numV_eq hn
  have e₂ := Hy.numV_eq hm
  have e := Hy.numV_eq hN
  have a₁ := hs₁.mono (Q := AnyH) fun _ _ _ => trivial
  have a₂ := hs₂.mono (Q := AnyH) fun _ _ _ => trivial
  have a := hs.mono (Q := AnyH) fun _ _ _ => trivial
  have key : ∀ {b : Bool} {s : HSt K} (X : Dense K), CoherentOn (Tr b) evKey s →
      (Spec.net Spec.HCall.run ls X s).1 = evNet Loca.evH ls X s.raw :=
    fun {b s} X hc => (net_readsOn (T := Hyper.Tr b) (f := Hyper.evKey) (ev := Loca.evH) (fun q X => by
      cases q with
      | v2v sc a => exact Hyper.reads_v2v sc X a
      | hgnn sc p keep => exact Hyper.reads_smooth sc X p keep) ls X s hc).1
  rw [key X₁ a₁.inv.2, key X₂ a₂.inv.2, key X a.inv.2]
  rw [listing_eq a₁] at hw₁ hl
  rw [listing_eq a₂] at hw₂ hl
  rw [listing_eq a] at hl
  have hw : Spec.HNonneg (lstOf none s.raw) := fun e he => by
    rcases List.mem_append.1 (hl.mem_iff.1 he) with he | he
    · exact hw₁ e he
    · obtain ⟨e', he', rfl⟩ := List.mem_map.1 he
      exact hw₂ e' he'
  subst e₁ e₂
  obtain ⟨p₁, p₂⟩ := SideH.pieces (lst_rng a₁.inv.1 hs₁.inRange none) (lst_rng a₂.inv.1 hs₂.inRange none) hl
  obtain ⟨Y, Y₁, Y₂, y, y₁, y₂, k⟩ := SideH.nets a.inv.1 hs.inRange (has_of_scope c) hw a₁.inv.1 hs₁.inRange (has_of_scope c₁)
    hw₁ a₂.inv.1 hs₂.inRange (has_of_scope c₂) hw₂ e p₁ p₂ ls hp hX₁ hX₂ hX
  exact ⟨Y₁, Y₂, Y, y₁, y₂, y, k⟩

/-! ### Construction -/

namespace SideH

/-- write hyperedges into a group -/
def puts (op : MergeOp) (l d : HGroup K) : HGroup K := l.foldl (fun d p => upsert d p.1 (Spec.merge op) p.2) d

theorem new_puts {k : Nat} (hk : 0 < k) (t : Bool) (es : List PySeq) (ws : List K) (hw : ws.length = es.length) {op : MergeOp}
    (hop : op ≠ .other) : ∃ s, Hyper.new k (some (.many t es)) (.list ws) none op = .ok s ∧ s.raw.numV = k ∧
      lstOf none s.raw = puts op ((es.map fun e => sortV e.items).zip ws) [] := by
  have hi : initRaw (K := K) k none = .ok { numV := k, vWeight := some (List.replicate k 1), groups := [] } := by
    unfold initRaw
    rw [if_pos (by omega)]
    rfl
  have hlen : (es.map fun e => sortV e.items).length = ws.length := by rw [List.length_map, hw]
  rcases addHyperedges_cases (.many t es) (.list ws) op "main"
    (s := { raw := { numV := k, vWeight := some (List.replicate k 1), groups := [] }, cache := [] }) with
    ⟨e, _, h⟩ | ⟨es', ws', f1, f2, _, ⟨h1, h2⟩ | ⟨h1, _⟩⟩
  · exact absurd hlen (h _ ws rfl rfl)
  · cases f1; cases f2
    refine ⟨(addHyperedges (.many t es) (.list ws) op "main"
      { raw := { numV := k, vWeight := some (List.replicate k 1), groups := [] }, cache := [] }).2, ?_, ?_, ?_⟩
    · unfold Hyper.new
      rw [hi]
      simp only [bind, Except.bind]
      rcases ha : addHyperedges (.many t es) (.list ws) op "main"
        { raw := { numV := k, vWeight := some (List.replicate k (1 : K)), groups := [] }, cache := [] } with ⟨_ | u, s'⟩
      · rw [ha] at h1; cases h1
      · rfl
    · rw [h2]; exact (addRaw_numV _ _ _ _).1
    · rw [h2]
      generalize (es.map fun e => sortV e.items).zip ws = zs
      rcases zs with _ | ⟨p, l⟩
      · rfl
      · rw [List.foldl_cons]
        have : addRaw op "main" (⟨k, some (List.replicate k 1), []⟩ : HRaw K) p =
            ⟨k, some (List.replicate k 1), [] ++ [("main", upsert [] p.1 (Spec.merge op) p.2)]⟩ := rfl
        rw [this, foldl_addRaw_last _ _ _ _ _ (by simp [Dict.keys])]
        simp only [lstOf, List.nil_append, List.flatMap_cons, List.flatMap_nil, List.append_nil]
        rfl
  · exact absurd h1 hop

/-- move the vertices -/
abbrev shift (o : Nat) (d : HGroup K) : HGroup K := d.map fun e => (e.1.map (· + (o : Int)), e.2)

theorem shift_inj {o : Nat} {e e' : List Int} : e.map (· + (o : Int)) = e'.map (· + (o : Int)) ↔ e = e' :=
  (List.map_injective_iff.2 fun a b h => by simpa using h).eq_iff

theorem sortV_shift (o : Nat) (e : List Int) : sortV (e.map (· + (o : Int))) = (sortV e).map (· + (o : Int)) := by
  rw [sortV_eq_iff.2 ((sortV_perm e).symm.map _)]
  refine sortV_of_sorted ?_
  rw [List.pairwise_map]
  exact (sortV_sorted e).imp fun h => by omega

theorem get_shift (o : Nat) (e : List Int) : ∀ d : HGroup K, Dict.get? (shift o d) (e.map (· + (o : Int))) = Dict.get? d e
  | [] => rfl
  | (e', w) :: d => by
    have := get_shift o e d
    simp only [shift, List.map_cons, Dict.get?, shift_inj] at this ⊢
    rw [this]

theorem set_shift (o : Nat) (e : List Int) (w : K) : ∀ d : HGroup K,
    Dict.set (shift o d) (e.map (· + (o : Int))) w = shift o (Dict.set d e w)
  | [] => rfl
  | (e', w') :: d => by
    have := set_shift o e w d
    simp only [shift, List.map_cons, Dict.set, shift_inj] at this ⊢
    split
    · rfl
    · rw [this]; rfl

theorem get_append {e : List Int} (d : HGroup K) : ∀ d₁ : HGroup K, e ∉ Dict.keys d₁ → Dict.get? (d₁ ++ d) e = Dict.get? d e
  | [], _ => rfl
  | (e', w') :: d₁, h => by
    rw [Dict.keys_cons, List.mem_cons, not_or] at h
    have := get_append d d₁ h.2
    simp only [List.cons_append, Dict.get?, if_neg fun h' : e' = e => h.1 h'.symm]
    exact this

theorem set_append {e : List Int} (w : K) (d : HGroup K) : ∀ d₁ : HGroup K, e ∉ Dict.keys d₁ →
    Dict.set (d₁ ++ d) e w = d₁ ++ Dict.set d e w
  | [], _ => rfl
  | (e', w') :: d₁, h => by
    rw [Dict.keys_cons, List.mem_cons, not_or] at h
    have := set_append w d d₁ h.2
    simp only [List.cons_append, Dict.set, if_neg fun h' : e' = e => h.1 h'.symm]
    rw [← this]

theorem puts_shift (op : MergeOp) (o : Nat) (d₁ : HGroup K) : ∀ (l d : HGroup K),
    (∀ p ∈ l, p.1.map (· + (o : Int)) ∉ Dict.keys d₁) →
    puts op (shift o l) (d₁ ++ shift o d) = d₁ ++ shift o (puts op l d)
  | [], _, _ => rfl
  | p :: l, d, h => by
    have hp := h p (List.mem_cons_self ..)
    have : upsert (d₁ ++ shift o d) (p.1.map (· + (o : Int))) (Spec.merge op) p.2 =
        d₁ ++ shift o (upsert d p.1 (Spec.merge op) p.2) := by
      unfold upsert
      rw [get_append _ _ hp, get_shift]
      split
      · rw [set_append _ _ _ hp, set_shift]
      · rw [set_append _ _ _ hp, set_shift]
    show puts op (shift o l) (upsert (d₁ ++ shift o d) (p.1.map (· + (o : Int))) (Spec.merge op) p.2) = _
    rw [this, puts_shift op o d₁ l _ fun p hp => h p (List.mem_cons_of_mem _ hp)]
    rfl

theorem keys_puts (op : MergeOp) : ∀ (l d : HGroup K) {e : List Int}, e ∈ Dict.keys (puts op l d) →
    e ∈ Dict.keys d ∨ e ∈ l.map Prod.fst
  | [], _, _, h => .inl h
  | p :: l, d, e, h => by
    rcases keys_puts op l _ h with h | h
    · rcases (Graph.keys_upsert _ _ _ _ _).1 h with h | h
      · exact .inr (by rw [h]; exact List.mem_cons_self ..)
      · exact .inl h
    · exact .inr (List.mem_cons_of_mem _ h)

end SideH

/-- C129. Building one hypergraph from the hyperedge lists of two, the vertices of the second counted from `n`, puts the
two hypergraphs side by side. -/
theorem C129_hypergraph_built {n m : Nat} (hn : 0 < n) (hm : 0 < m) (t : Bool) (es₁ es₂ : List PySeq) (ws₁ ws₂ : List K)
    (hw₁ : ws₁.length = es₁.length) (hw₂ : ws₂.length = es₂.length) (h₁ : Proper n (.many t es₁)) (h₂ : Proper m (.many t es₂))
    (h0 : ∀ e ∈ es₂, e.items ≠ []) {op : MergeOp} (hop : op ≠ .other) :
    ∃ s₁ s₂ s, Hyper.new n (some (.many t es₁)) (.list ws₁) none op = .ok s₁ ∧
      Hyper.new m (some (.many t es₂)) (.list ws₂) none op = .ok s₂ ∧
      Hyper.new (n + m : Nat) (some (.many t (es₁ ++ es₂.map fun e => ⟨e.tup, e.items.map (· + (n : Int))⟩)))
        (.list (ws₁ ++ ws₂)) none op = .ok s ∧
      (ask .numV s).1 = .ok (.num (n + m)) ∧
      Spec.HypergraphsBeside n (Spec.hListing s₁ none) (Spec.hListing s₂ none) (Spec.hListing s none) := by
  obtain ⟨s₁, e₁, _, l₁⟩ := SideH.new_puts hn t es₁ ws₁ hw₁ hop
  obtain ⟨s₂, e₂, _, l₂⟩ := SideH.new_puts hm t es₂ ws₂ hw₂ hop
  obtain ⟨s, e, k, l⟩ := SideH.new_puts (k := n + m) (by omega) t
    (es₁ ++ es₂.map fun e => ⟨e.tup, e.items.map (· + (n : Int))⟩) (ws₁ ++ ws₂) (by simp [hw₁, hw₂]) hop
  have b₁ : Built AnyH true s₁ := .new e₁ fun _ _ => trivial
  have b₂ : Built AnyH true s₂ := .new e₂ fun _ _ => trivial
  have b : Built AnyH true s := .new e fun _ _ => trivial
  refine ⟨s₁, s₂, s, e₁, e₂, e, by show Except.ok (HAns.num s.raw.numV) = _; rw [k], ?_⟩
  rw [listing_eq b₁, listing_eq b₂, listing_eq b, l₁, l₂, l]
  unfold Spec.HypergraphsBeside
  refine List.Perm.of_eq ?_
  rw [List.map_append, List.zip_append (by simp [hw₁])]
  unfold SideH.puts
  rw [List.foldl_append]
  have z : ((es₂.map fun e => (⟨e.tup, e.items.map (· + (n : Int))⟩ : PySeq)).map fun e => sortV e.items).zip ws₂ =
      SideH.shift n ((es₂.map fun e => sortV e.items).zip ws₂) := by
    rw [List.map_map, SideH.shift, show (fun e : List Int × K => (e.1.map (· + (n : Int)), e.2)) =
      Prod.map (fun e => e.map (· + (n : Int))) id from rfl, ← List.zip_map_left, List.map_map]
    congr 1
    exact List.map_congr_left fun e _ => SideH.sortV_shift n e.items
  rw [z]
  have := SideH.puts_shift op n (SideH.puts op ((es₁.map fun e => sortV e.items).zip ws₁) [])
    ((es₂.map fun e => sortV e.items).zip ws₂) [] fun p hp hk => by
      obtain ⟨e, he, hpe⟩ := List.mem_map.1 (List.of_mem_zip hp).1
      rcases SideH.keys_puts _ _ _ hk with hk | hk
      · exact absurd hk (by simp [Dict.keys])
      · obtain ⟨q, hq, hqe⟩ := List.mem_map.1 hk
        obtain ⟨e', he', hqe'⟩ := List.mem_map.1 (List.of_mem_zip hq).1
        rcases hv : sortV e.items with _ | ⟨v, vs⟩
        · exact h0 e he (List.perm_nil.1 (hv ▸ (sortV_perm e.items).symm))
        · have hv' : v ∈ sortV e.items := by rw [hv]; exact List.mem_cons_self ..
          have a1 := (h₂ e.items (List.mem_map.2 ⟨e, he, rfl⟩)).2 v (mem_sortV.1 hv')
          have : v + (n : Int) ∈ q.1 := by
            rw [hqe, ← hpe]; exact List.mem_map.2 ⟨v, hv', rfl⟩
          rw [← hqe'] at this
          have a2 := (h₁ e'.items (List.mem_map.2 ⟨e', he', rfl⟩)).2 _ (mem_sortV.1 this)
          omega
  simp only [SideH.shift, List.map_nil, List.append_nil] at this
  exact this

/-- the hypergraph `exH2` next to itself -/
theorem exSideH : ∃ s : HSt ℝ, Hyper.new (K := ℝ) 4 (some (.many true [⟨true, [0, 1]⟩, ⟨true, [2, 3]⟩])) (.list [1, 1]) none
    .mean = .ok s ∧ Built Proper true s ∧ Spec.HasScope s none ∧ (ask .numV s).1 = .ok (.num (2 + 2)) ∧
    Spec.HypergraphsBeside 2 (Spec.hListing exH2 none) (Spec.hListing exH2 none) (Spec.hListing s none) := by
  refine ⟨{ raw := { numV := 4, vWeight := some [1, 1, 1, 1], groups := [("main", [([0, 1], 1), ([2, 3], 1)])] }, cache := [] },
    rfl, .new (n := 4) (arg := some (.many true [⟨true, [0, 1]⟩, ⟨true, [2, 3]⟩])) (ew := .list [1, 1]) (vw := none)
      (op := .mean) rfl (fun a ha => ?_), ?_, rfl, List.Perm.of_eq rfl⟩
  · cases ha
    intro e he
    simp only [argEdges, List.map_cons, List.map_nil, List.mem_cons, List.not_mem_nil, or_false] at he
    rcases he with rfl | rfl <;> simp
  · show Dict.keys _ ≠ []
    simp [Dict.keys]

example : Built Proper true exH2 ∧ Spec.HasScope exH2 none ∧ (ask .numV exH2).1 = .ok (.num 2) ∧
    Spec.HNonneg (Spec.hListing exH2 none) ∧ ∃ X : Dense ℝ, (exX 2).rows = 2 ∧ Spec.Above (exX 2) (exX 2) X := by
  refine ⟨exH2_proper, exH2_scope, rfl, ?_, ⟨4, 1, fun i c => (exX 2).at_ (i % 2) c⟩, rfl, rfl, rfl, rfl, ?_, ?_⟩
  · rw [exH2_listing]; intro e he; simp at he; subst he; norm_num
  · intro i c hi _
    have hi' : i < 2 := hi
    show (exX 2).at_ (i % 2) c = _
    rw [Nat.mod_eq_of_lt hi']
  · intro i c hi _
    have hi' : i < 2 := hi
    show (exX 2).at_ ((2 + i) % 2) c = _
    rw [show (2 + i) % 2 = i by omega]

example : (2 : Nat) = [1, (1 : ℝ)].length ∧ Proper 4 (.many true [⟨true, [0, 1]⟩, ⟨true, [2, 3]⟩]) ∧
    ∀ e ∈ [(⟨true, [0, 1]⟩ : PySeq), ⟨true, [2, 3]⟩], e.items ≠ [] := by
  refine ⟨rfl, fun e he => ?_, by simp⟩
  simp only [argEdges, List.map_cons, List.map_nil, List.mem_cons, List.not_mem_nil, or_false] at he
  rcases he with rfl | rfl <;> simp

end Props
end DHG
