import Verif.Props.GraphRenameNn
import Verif.Props.HyperRenameNn

/-!
# Models are made of their layers (C102)
-/

set_option linter.unusedSectionVars false
set_option autoImplicit false

namespace DHG

namespace Spec

/-- the outputs `Ys` of several heads side by side: `Y` has the columns of the first head, then those of the
second, and so on -/
def SideBySide {K : Type} (Ys : List (Dense K)) (n d : Nat) (Y : Dense K) : Prop :=
  Y.rows = n ∧ Y.cols = Ys.length * d ∧
    ∀ h (hh : h < Ys.length) i c, c < d → Y.at_ i (h * d + c) = Ys[h].at_ i c

end Spec

namespace Props

open Finset Nn

variable {K : Type} [Field K] [LinearOrder K] [PyReal K] {b : Bool}

namespace Mf

section
variable {R κ ν α β : Type} [DecidableEq κ] {f : κ → R → Except Err ν} {S : κ → Prop}

/-- two reads one after the other -/
theorem bindOn {m : PyM (Cached R κ ν) α} {g : α → PyM (Cached R κ ν) β} (hm : ∃ p, ReadsOn S f m p)
    (hg : ∀ a, ∃ q, ReadsOn S f (g a) q) {s : Cached R κ ν} (hs : CoherentOn S f s) :
    ((m >>= g) s).1 = ((m s).1 >>= fun a => (g a s).1) := by
  obtain ⟨p, hp⟩ := hm
  obtain ⟨_, h2, h3⟩ := hp s hs
  simp only [PyM.bind_apply]
  rcases hh : m s with ⟨x, t⟩
  rw [hh] at h2 h3
  rcases x with e | a
  · rfl
  · obtain ⟨q, hq⟩ := hg a
    dsimp only at h2 h3 ⊢
    show (g a t).1 = (g a s).1
    rw [(hq _ h3).1, (hq _ hs).1, h2]

theorem stackOn {ι : Type} (F : ι → Dense K → PyM (Cached R κ ν) (Dense K))
    (hF : ∀ i X, ∃ p, ReadsOn S f (F i X) p) (ls : List ι) {s : Cached R κ ν} (hs : CoherentOn S f s) (X : Dense K) :
    (stackRun (ls.map F) X s).1 = ls.foldlM (fun X l => (F l X s).1) X := by
  induction ls generalizing X with
  | nil => rfl
  | cons l ls ih =>
    have hm : ∀ g ∈ ls.map F, ∀ X, ∃ p, ReadsOn S f (g X) p := by
      simp only [List.mem_map]; rintro _ ⟨i, _, rfl⟩ X; exact hF i X
    rw [List.foldlM_cons]
    have := bindOn (g := stackRun (ls.map F)) (hF l X) (fun Y => isReadOn_stack _ hm Y) hs
    refine Eq.trans this ?_
    congr 1
    funext Y
    exact ih Y

theorem collectOn (ms : List (PyM (Cached R κ ν) α)) (h : ∀ m ∈ ms, ∃ p, ReadsOn S f m p) {s : Cached R κ ν}
    (hs : CoherentOn S f s) {outs : List α} (ho : List.Forall₂ (fun m a => (m s).1 = .ok a) ms outs) :
    (PyM.collect ms id s).1 = .ok outs := by
  induction ho with
  | nil => rfl
  | @cons m a ms outs h1 _ ih =>
    have hr := isReadOn_collect ms fun m hm => h m (List.mem_cons_of_mem _ hm)
    show ((m >>= fun a => PyM.collect ms id >>= fun as => pure (a :: as)) s).1 = _
    rw [bindOn (h m List.mem_cons_self) (fun a => isReadOn_bind hr fun _ => ⟨_, ReadsOn.pure _⟩) hs, h1]
    show ((PyM.collect ms id >>= fun as => pure (a :: as)) s).1 = _
    rw [bindOn hr (fun _ => ⟨_, ReadsOn.pure _⟩) hs, ih fun m hm => h m (List.mem_cons_of_mem _ hm)]
    rfl

theorem headsOn (ms : List (PyM (Cached R κ ν) (Dense K))) (h : ∀ m ∈ ms, ∃ p, ReadsOn S f m p)
    {next : Dense K → PyM (Cached R κ ν) (Dense K)} (hn : ∀ X, ∃ p, ReadsOn S f (next X) p) {s : Cached R κ ν}
    (hs : CoherentOn S f s) {outs : List (Dense K)} (ho : List.Forall₂ (fun m a => (m s).1 = .ok a) ms outs)
    (h0 : outs ≠ []) {n d : Nat} (hd : ∀ Y ∈ outs, Y.rows = n ∧ Y.cols = d) :
    ∃ Y, Spec.SideBySide outs n d Y ∧ ((multiHead "concat" ms >>= next) s).1 = (next Y s).1 := by
  have hc := collectOn ms h hs ho
  have hr : PyM.collect ms id s = (.ok outs, (PyM.collect ms id s).2) := Prod.ext hc rfl
  obtain ⟨⟨Y, hY, h1⟩, _⟩ := C94_multi_head ms hr h0 hd
  refine ⟨Y, h1, ?_⟩
  rw [bindOn (isReadOn_multiHead "concat" ms h) hn hs, hY]
  rfl

theorem cohOn {s : Cached R κ ν} : CoherentOn (fun _ => True) f s ↔ Coherent f s :=
  ⟨fun h k v => h k v trivial, fun h k v _ => h k v⟩

theorem readOn {m : PyM (Cached R κ ν) α} (h : ∃ p, Reads f m p) : ∃ p, ReadsOn (fun _ => True) f m p := by
  obtain ⟨p, hp⟩ := h
  refine ⟨p, fun s hs => ?_⟩
  obtain ⟨h1, h2, h3⟩ := hp s (cohOn.1 hs)
  exact ⟨h1, h2, cohOn.2 h3⟩

end

end Mf

/-- C102. `GCN` and `GraphSAGE` apply their layers one after another: the output is what one gets by calling the
first layer on the graph and the features, the second on the graph and what the first returned, and so on (and
the call fails as the first of these fails). -/
theorem C102_graph_stacks {P : EArg K → Prop} {g : GSt K} (hg : Graph.Built P g) (ls : List (Conv K)) (X : Dense K) :
    ((GModel.gcn ls).run X g).1 = ls.foldlM (fun X l => (gcnConv l X g).1) X ∧
    ((GModel.sage ls).run X g).1 = ls.foldlM (fun X l => (sageConv l X g).1) X :=
  ⟨Mf.stackOn gcnConv (fun l X => Mf.readOn (isRead_gcn l X)) ls (Mf.cohOn.2 hg.inv.2) X,
    Mf.stackOn sageConv (fun l X => Mf.readOn (isRead_sage l X)) ls (Mf.cohOn.2 hg.inv.2) X⟩

/-- C102. `GAT` calls all its heads on the same features, puts their outputs side by side and calls the output
layer on the result (with the two dropouts in between). -/
theorem C102_gat {P : EArg K → Prop} {g : GSt K} (hg : Graph.Built P g) (d1 d2 : Dense K → Dense K) (hs : List (Gat K))
    (o : Gat K) (X : Dense K) {outs : List (Dense K)}
    (ho : List.Forall₂ (fun h Y => (gatConv h (d1 X) g).1 = .ok Y) hs outs) (h0 : hs ≠ []) {n d : Nat}
    (hd : ∀ Y ∈ outs, Y.rows = n ∧ Y.cols = d) :
    ∃ Y, Spec.SideBySide outs n d Y ∧ ((GModel.gat d1 hs d2 o).run X g).1 = (gatConv o (d2 Y) g).1 := by
  refine Mf.headsOn (hs.map fun h => gatConv h (d1 X)) ?_ (next := fun Y => gatConv o (d2 Y))
    (fun Y => Mf.readOn (isRead_gat o _)) (Mf.cohOn.2 hg.inv.2) ?_ ?_ hd
  · simp only [List.mem_map]; rintro _ ⟨l, _, rfl⟩; exact Mf.readOn (isRead_gat l _)
  · rw [List.forall₂_map_left_iff]; exact ho
  · rintro rfl
    cases ho
    exact h0 rfl

/-- the values after each layer of `GIN` on the graph `g` -/
def Spec.GinTrace (g : GSt K) (n : Nat) (ls : List (GinLayer K)) (Xs : Nat → Dense K) : Prop :=
  ∀ k (hk : k < ls.length),
    (ginConv (mlp ls[k].par ls[k].useBn false ls[k].channels) ls[k].eps (Xs k) g).1 = .ok (Xs (k + 1)) ∧
    (Xs (k + 1)).rows = n

namespace Mf

theorem ginLoop_sum {g : GSt K} (hc : Coherent Graph.evKey g) {n o : Nat} (ls : List (GinLayer K))
    {Xs : Nat → Dense K} {Q : Dense K} (hT : Spec.GinTrace g n ls Xs) (q1 : Q.rows = n) (q2 : Q.cols = o)
    (hp : ∀ k (hk : k < ls.length), ls[k].pred.weight.cols = (Xs (k + 1)).cols ∧ ls[k].pred.weight.rows = o) :
    ∃ Z, (ginLoop ls (Xs 0) Q g).1 = .ok Z ∧ Z.rows = n ∧ Z.cols = o ∧
      ∀ i c, i < n → c < o → Z.at_ i c = Q.at_ i c +
        (ls.zipIdx.map fun l => Spec.affine l.1.pred (Xs (l.2 + 1)) i c).sum := by
  induction ls generalizing Xs Q with
  | nil => exact ⟨Q, rfl, q1, q2, fun i c _ _ => by simp⟩
  | cons l ls ih =>
    obtain ⟨h1, h2⟩ := hT 0 (by simp)
    obtain ⟨p1, p2⟩ := hp 0 (by simp)
    rw [List.getElem_cons_zero] at h1 p1 p2
    obtain ⟨P, r1, r2, r3, r4⟩ := linear_ok l.pred (X := Xs (0 + 1)) p1.symm
    obtain ⟨R, s1, s2, s3, s4⟩ := zipD_same (· + ·) q1 (r2.trans h2) q2 (r3.trans p2)
    obtain ⟨Z, z1, z2, z3, z4⟩ := ih (Xs := fun k => Xs (k + 1)) (Q := R)
      (fun k hk => by
        have := hT (k + 1) (by simpa using hk)
        simpa using this) s2 s3
      (fun k hk => by
        have := hp (k + 1) (by simpa using hk)
        simpa using this)
    refine ⟨Z, ?_, z2, z3, fun i c hi hc => ?_⟩
    · rw [ginLoop_step hc h1 r1 s1]
      exact z1
    · rw [z4 i c hi hc, s4 i c hi hc, r4, List.zipIdx_cons, List.map_cons, List.sum_cons, add_assoc]
      congr 2
      rw [List.zipIdx_succ, List.map_map]
      rfl

end Mf

/-- C102. `GIN` returns the sum of the predictions of its linear layers: the first from the features, the `k`-th
further one from what the `k`-th layer returned. -/
theorem C102_gin {P : EArg K → Prop} {g : GSt K} (hg : Graph.Built P g) {n o : Nat} (p : Linear K)
    (ls : List (GinLayer K)) {Xs : Nat → Dense K} (h0 : (Xs 0).rows = n) (hT : Spec.GinTrace g n ls Xs)
    (hc : p.weight.cols = (Xs 0).cols) (ho : p.weight.rows = o)
    (hp : ∀ k (hk : k < ls.length), ls[k].pred.weight.cols = (Xs (k + 1)).cols ∧ ls[k].pred.weight.rows = o) :
    ∃ Z, ((GModel.gin p ls).run (Xs 0) g).1 = .ok Z ∧ Z.rows = n ∧ Z.cols = o ∧
      ∀ i c, i < n → c < o → Z.at_ i c = Spec.affine p (Xs 0) i c +
        (ls.zipIdx.map fun l => Spec.affine l.1.pred (Xs (l.2 + 1)) i c).sum := by
  obtain ⟨Q, r1, r2, r3, r4⟩ := linear_ok p (X := Xs 0) hc.symm
  obtain ⟨Z, z1, z2, z3, z4⟩ := Mf.ginLoop_sum hg.inv.2 ls hT (r2.trans h0) (r3.trans ho) hp
  refine ⟨Z, ?_, z2, z3, fun i c hi hc => by rw [z4 i c hi hc, r4]⟩
  rw [← z1]
  simp only [GModel.run, PyM.bind_apply, PyM.lift_apply, r1]

/-- C102. `HGNN`, `HGNNP`, `HNHN`, `UniGCN`, `UniSAGE` and `UniGIN` apply their layers one after another. -/
theorem C102_hypergraph_stacks {s : HSt K} (hs : Hyper.Built Hyper.AnyH true s) (ls : List (Conv K))
    (hn : List (Conv K × Linear K)) (ug : List (Conv K × K)) (X : Dense K) :
    ((HModel.hgnn ls).run X s).1 = ls.foldlM (fun X l => (hgnnConv l X s).1) X ∧
    ((HModel.hgnnp ls).run X s).1 = ls.foldlM (fun X l => (hgnnpConv l X s).1) X ∧
    ((HModel.hnhn hn).run X s).1 = hn.foldlM (fun X l => (hnhnConv l.1 l.2 X s).1) X ∧
    ((HModel.uniGcn ls).run X s).1 = ls.foldlM (fun X l => (uniGcnConv l X s).1) X ∧
    ((HModel.uniSage ls).run X s).1 = ls.foldlM (fun X l => (uniSageConv l X s).1) X ∧
    ((HModel.uniGin ug).run X s).1 = ug.foldlM (fun X l => (uniGinConv l.1 l.2 X s).1) X := by
  have hc := hs.inv.2
  exact ⟨Mf.stackOn hgnnConv (fun l X => ⟨_, reads_hgnn l X⟩) ls hc X,
    Mf.stackOn hgnnpConv (fun l X => ⟨_, reads_hgnnp l X⟩) ls hc X,
    Mf.stackOn (fun l : Conv K × Linear K => hnhnConv l.1 l.2) (fun l X => ⟨_, reads_hnhn _ _ X⟩) hn hc X,
    Mf.stackOn uniGcnConv (fun l X => ⟨_, reads_uniGcn l X⟩) ls hc X,
    Mf.stackOn uniSageConv (fun l X => ⟨_, reads_uniSage l X⟩) ls hc X,
    Mf.stackOn (fun l : Conv K × K => uniGinConv l.1 l.2) (fun l X => ⟨_, reads_uniGin _ _ X⟩) ug hc X⟩

/-- C102. `UniGAT` likewise calls its heads on the same features and the output layer on their outputs side by
side. -/
theorem C102_unigat {s : HSt K} (hs : Hyper.Built Hyper.AnyH true s) (d1 d2 : Dense K → Dense K) (hds : List (UniGat K))
    (o : UniGat K) (X : Dense K) {outs : List (Dense K)}
    (ho : List.Forall₂ (fun h Y => (uniGatConv h (d1 X) s).1 = .ok Y) hds outs) (h0 : hds ≠ []) {n d : Nat}
    (hd : ∀ Y ∈ outs, Y.rows = n ∧ Y.cols = d) :
    ∃ Y, Spec.SideBySide outs n d Y ∧ ((HModel.uniGat d1 hds d2 o).run X s).1 = (uniGatConv o (d2 Y) s).1 := by
  refine Mf.headsOn (hds.map fun h => uniGatConv h (d1 X)) ?_ (next := fun Y => uniGatConv o (d2 Y))
    (fun Y => ⟨_, reads_uniGat o _⟩) hs.inv.2 ?_ ?_ hd
  · simp only [List.mem_map]; rintro _ ⟨l, _, rfl⟩; exact ⟨_, reads_uniGat l _⟩
  · rw [List.forall₂_map_left_iff]; exact ho
  · rintro rfl
    cases ho
    exact h0 rfl

namespace Mf

theorem given_stack (med : Bool) (g : GSt K) (ls : List (Conv K × (Nat → K))) (X : Dense K) (s s' : HSt K) :
    (stackRun (ls.map fun l => hyperGcnConv l.1 med (some g) l.2) X s').1 =
      ls.foldlM (fun X l => (hyperGcnConv l.1 med (some g) l.2 X s).1) X := by
  induction ls generalizing X with
  | nil => rfl
  | cons l ls ih =>
    obtain ⟨r, hr⟩ := hyperGcn_given l.1 med g l.2 X
    rw [List.foldlM_cons, hr s]
    cases r with
    | error e =>
      simp only [List.map_cons, stackRun, PyM.bind_apply, hr s']
      rfl
    | ok Y =>
      simp only [List.map_cons, stackRun, PyM.bind_apply, hr s']
      exact ih Y

end Mf

/-- C102. `HyperGCN` without the fast mode applies its layers one after another, each converting the hypergraph
anew with its own random direction.  In the fast mode all layers use the graph made at the first call from the
features and the hypergraph of that call. -/
theorem C102_hypergcn {s : HSt K} (hs : Hyper.Built Hyper.AnyH true s) (M : HyperGcn K) (rv : Nat → K) (X : Dense K) :
    (M.fast = false → ∀ c, (M.run rv X (s, c)).1 =
      M.layers.foldlM (fun X l => (hyperGcnConv l.1 M.mediator none l.2 X s).1) X) ∧
    (M.fast = true → ∀ g, (Graph.fromHypergraphHypergcn X M.mediator true rv s).1 = .ok g →
      (M.run rv X (s, none)).1 =
        M.layers.foldlM (fun X l => (hyperGcnConv l.1 M.mediator (some g) l.2 X s).1) X ∧
      (M.run rv X (s, none)).2.2 = some g) ∧
    (M.fast = true → ∀ g, (M.run rv X (s, some g)).1 =
        M.layers.foldlM (fun X l => (hyperGcnConv l.1 M.mediator (some g) l.2 X s).1) X ∧
      (M.run rv X (s, some g)).2.2 = some g) := by
  refine ⟨fun h c => ?_, fun h g hg => ?_, fun h g => ?_⟩
  · unfold HyperGcn.run
    rw [h]
    exact Mf.stackOn (fun l : Conv K × (Nat → K) => hyperGcnConv l.1 M.mediator none l.2)
      (fun l X => isRead_hyperGcn _ _ _ X) M.layers hs.inv.2 X
  · rcases hh : Graph.fromHypergraphHypergcn X M.mediator true rv s with ⟨r, s'⟩
    rw [hh] at hg
    dsimp only at hg
    subst hg
    have hgr : M.graph rv X (s, none) = (.ok g, (s', some g)) := by
      unfold HyperGcn.graph
      dsimp only
      rw [hh]
    unfold HyperGcn.run
    rw [if_pos h]
    simp only [PyM.bind_apply, hgr]
    exact ⟨Mf.given_stack M.mediator g M.layers X s s', rfl⟩
  · have hgr : M.graph rv X (s, some g) = (.ok g, (s, some g)) := rfl
    unfold HyperGcn.run
    rw [if_pos h]
    simp only [PyM.bind_apply, hgr]
    exact ⟨Mf.given_stack M.mediator g M.layers X s s, rfl⟩

/-! ### Examples -/

/-- a `GIN` with one layer on the graph of two joined vertices -/
example : ∃ (g : GSt ℝ) (ls : List (GinLayer ℝ)) (Xs : Nat → Dense ℝ) (p : Linear ℝ), Graph.Built Graph.NonNeg g ∧
    Spec.GinTrace g 2 ls Xs ∧ ls ≠ [] ∧ (Xs 0).rows = 2 ∧ p.weight.cols = (Xs 0).cols ∧ p.weight.rows = 3 ∧
    ∀ k (hk : k < ls.length), ls[k].pred.weight.cols = (Xs (k + 1)).cols ∧ ls[k].pred.weight.rows = 3 := by
  let par : MlpPar ℝ :=
    { weight := fun k i o => k + i - o, bias := fun k o => k * o, act := fun x => max x 0,
      bn := fun k X => .ok { X with at_ := fun i c => (X.at_ i c - c) / (k + 1) }, drop := fun _ X => X }
  have hpar : Spec.MlpEval par (fun k c x => (x - c) / (k + 1)) := ⟨fun _ _ => rfl, fun _ _ => rfl⟩
  let X : Dense ℝ := ⟨2, 2, fun i c => (i : ℝ) + c⟩
  obtain ⟨Z, z1, z2, _, z4, _⟩ := C90_gin_conv exE_nonneg (n := 2) rfl (mlp par true false [2, 8, 5]) (1 / 2) X rfl
  obtain ⟨Y, y1, y2, y3, _⟩ := C94_mlp_rowwise hpar true false [2, 8, 5] (by decide) Z (by rw [z2]; rfl)
  refine ⟨exE, [⟨par, true, [2, 8, 5], 1 / 2, ⟨⟨3, 5, fun i c => i * c⟩, none⟩⟩], fun k => if k = 0 then X else Y,
    ⟨⟨3, 2, fun i c => i - c⟩, none⟩, exE_nonneg, ?_, by simp, rfl, rfl, rfl, ?_⟩
  · intro k hk
    have : k = 0 := by simpa using hk
    subst this
    exact ⟨z4.trans y1, y2.trans z1⟩
  · intro k hk
    have : k = 0 := by simpa using hk
    subst this
    exact ⟨(Option.some.inj y3).symm, rfl⟩

/-- two heads of a `GAT` on this graph -/
example : ∃ (g : GSt ℝ) (hs : List (Gat ℝ)) (X : Dense ℝ) (outs : List (Dense ℝ)), Graph.Built Graph.NonNeg g ∧
    hs.length = 2 ∧ List.Forall₂ (fun h Y => (gatConv h X g).1 = .ok Y) hs outs ∧
    ∀ Y ∈ outs, Y.rows = 2 ∧ Y.cols = 4 := by
  let l (a : ℝ) : Gat ℝ := ⟨⟨⟨4, 2, fun i c => i + a * c⟩, none⟩, ⟨⟨1, 4, fun _ c => c⟩, none⟩,
    ⟨⟨1, 4, fun _ _ => 1⟩, none⟩, 1 / 5, fun _ x => x, true, none⟩
  let X : Dense ℝ := ⟨2, 2, fun i c => (i : ℝ) + c⟩
  have h : ∀ a, ∃ Y, (gatConv (l a) X exE).1 = .ok Y ∧ Y.rows = 2 ∧ Y.cols = 4 := by
    intro a
    obtain ⟨_, Z, _, _, _, _, _, _, _, z1, z2, _, _, _, _, hZ, _⟩ :=
      C90_gat_conv_partial exE_nonneg (n := 2) rfl exE_vecs (by decide) (l a) X rfl rfl rfl rfl
    exact ⟨Z, hZ rfl, z1, z2⟩
  obtain ⟨Y, y1, y2⟩ := h 1
  obtain ⟨Z, z1, z2⟩ := h 2
  refine ⟨exE, [l 1, l 2], X, [Y, Z], exE_nonneg, rfl, .cons y1 (.cons z1 .nil), ?_⟩
  intro W hW
  simp only [List.mem_cons, List.not_mem_nil, or_false] at hW
  rcases hW with rfl | rfl
  · exact y2
  · exact z2

example : Hyper.Built Hyper.Proper true exH := exH_proper

end Props
end DHG
