import Verif.LiveLemmas
import Verif.Grows
import Verif.Blind
import Verif.Scoped
import Verif.Keeps
import Verif.DiGraphLemmas
import Verif.BiGraphLemmas

/-!
# The four classes as instances of the machine of `Live.lean`
-/

set_option linter.unusedSectionVars false
set_option autoImplicit false

namespace DHG
namespace Live

section Machine
variable {R κ V A B D Op Q Ans New Der : Type} [DecidableEq κ] [Inhabited V]
variable {C : Heap.Klass (Cached R κ V) A B D Op Q Ans New Der} {refresh : R → Op → Bool} {ok : R → List κ → Prop}

theorem data_kept (hC : Live.Lawful C refresh ok) : Spec.DataKept C :=
  fun p i => ((Good.empty (ok := ok)).run hC p).rel.raw i

theorem untouched_same (hC : Live.Lawful C refresh ok) : Spec.UntouchedSame C refresh := by
  intro p i hi
  have h := ((Good.empty (ok := ok)).run hC p).rel.same i hi
  refine ⟨h, fun q => ?_⟩
  show (view (Spec.world C p) i).map _ = (view (Spec.world C (Spec.noEdits p)) i).map _
  unfold Spec.world
  rw [h]

theorem refreshed_same (hC : Live.Lawful C refresh ok) : Spec.RefreshedSame C refresh := by
  intro p i s o hs hr hok q
  have hg := (Good.empty (ok := ok)).run hC p
  obtain ⟨x, hx, rfl⟩ := view_some hs
  have h2 := hg.step hC (.call i o) (fun _ _ h => by cases h)
  have hren : Spec.renews C refresh (execAll C .empty p) i o = true := (renews_eq hx o).2 ⟨hr, hok⟩
  have := h2.rel.same i (by
    simp only [Spec.mark, hren, if_true, List.getElem?_set_self']
    intro h
    cases h3 : (Spec.marksFrom C refresh .empty ⟨[], []⟩ p).touched[i]? with
    | none => rw [h3] at h; cases h
    | some b => rw [h3] at h; cases h)
  unfold Live.answer Spec.world execAll
  rw [List.foldl_append, List.foldl_append]
  exact congrArg (Option.map _) this

end Machine
variable {K : Type} [Field K] [LinearOrder K] [PyReal K]

theorem live_graph : Live.Lawful (Heap.graph (K := K)) Spec.renewG (fun _ _ => True) where
  call_cache o := (Graph.blind_apply o).sub
  call_fresh o s _ hr hok := by
    cases o with
    | addEdges arg op =>
      exact (Graph.wipes_add arg op (by simpa [Spec.renewG] using hr)).wipe s () hok
    | removeEdges arg =>
      have : Wipes (Graph.removeEdges (K := K) arg) := by unfold Graph.removeEdges; blind
      exact this.wipe s () hok
    | _ => rfl
  call_raw o := (Graph.blind_apply o).raw
  call_ok o := (Graph.blind_apply o).ans
  read_raw q := (Graph.keeps_ask q).keep
  read_cache q := (Graph.grows_ask q).grow
  read_nodup q := (Graph.grows_ask q).nodup
  make_cache x s hs := by
    have hs : Graph.new x.numV x.arg x.extra x.op = .ok s := hs
    unfold Graph.new at hs
    cases hr : GRaw.init (K := K) x.numV x.extra with
    | error e => rw [hr] at hs; cases hs
    | ok r =>
      rw [hr] at hs
      simp only [bind, Except.bind] at hs
      split at hs
      · cases hs; rfl
      · rename_i arg _
        have := (Graph.blind_apply (.addEdges arg x.op)).sub { raw := r, cache := [] }
        dsimp only [Graph.apply] at this
        split at hs
        · rename_i h; cases hs; rw [h] at this; exact List.sublist_nil.1 this
        · cases hs
  derive_cache d s s' hs := by
    have hs : Graph.dropEdges d.rate d.uniform d.rnd s = .ok s' := hs
    unfold Graph.dropEdges Graph.fromStateDict at hs
    split at hs
    · revert hs
      cases GRaw.init (K := K) (s.raw.numV : Int) s.raw.extra <;> intro hs <;> cases hs
      rfl
    · cases hs
  derive_eq d s s' h := by
    show Graph.dropEdges d.rate d.uniform d.rnd s = Graph.dropEdges d.rate d.uniform d.rnd s'
    unfold Graph.dropEdges; rw [h]
  clone_cache s s' hs := by cases hs; rfl
  ok_nil _ := trivial
  call_inv _ _ _ := trivial
  read_inv _ _ _ := trivial
  clone_inv _ _ _ _ := trivial
  clone_raw s s' h := congrArg Except.ok h

theorem live_digraph : Live.Lawful (Heap.digraph (K := K)) Spec.renewD (fun _ _ => True) where
  call_cache o := (DiGraph.blind_apply o).sub
  call_fresh o s _ hr hok := by
    cases o with
    | addEdges arg op =>
      exact (Ord.wipes_add .di arg op (by simpa [Spec.renewD] using hr)).wipe s () hok
    | removeEdges arg => exact Ord.removeEdges_clears arg s hok
    | reverseDirection => cases hr
    | _ => rfl
  call_raw o := (DiGraph.blind_apply o).raw
  call_ok o := (DiGraph.blind_apply o).ans
  read_raw q := DiGraph.keeps_ask q
  read_cache q := (DiGraph.grows_ask q).grow
  read_nodup q := (DiGraph.grows_ask q).nodup
  make_cache x s hs := by
    have hs : DiGraph.new x.numV x.arg x.extra x.op = .ok s := hs
    unfold DiGraph.new at hs
    cases hr : GRaw.init (K := K) x.numV x.extra with
    | error e => rw [hr] at hs; cases hs
    | ok r =>
      rw [hr] at hs
      simp only [bind, Except.bind] at hs
      split at hs
      · cases hs; rfl
      · rename_i arg _
        have := (DiGraph.blind_apply (.addEdges arg x.op)).sub { raw := r, cache := [] }
        dsimp only [DiGraph.apply] at this
        split at hs
        · rename_i h; cases hs; rw [h] at this; exact List.sublist_nil.1 this
        · cases hs
  derive_cache d s s' hs := by
    have hs : DiGraph.dropEdges d.rate d.uniform d.rnd s = .ok s' := hs
    unfold DiGraph.dropEdges DiGraph.fromStateDict at hs
    split at hs
    · revert hs
      cases GRaw.init (K := K) (s.raw.numV : Int) s.raw.extra <;> intro hs <;> cases hs
      rfl
    · cases hs
  derive_eq d s s' h := by
    show DiGraph.dropEdges d.rate d.uniform d.rnd s = DiGraph.dropEdges d.rate d.uniform d.rnd s'
    unfold DiGraph.dropEdges; rw [h]
  clone_cache s s' hs := by cases hs; rfl
  ok_nil _ := trivial
  call_inv _ _ _ := trivial
  read_inv _ _ _ := trivial
  clone_inv _ _ _ _ := trivial
  clone_raw s s' h := congrArg Except.ok h

theorem live_bigraph : Live.Lawful (Heap.bigraph (K := K)) Spec.renewB (fun _ _ => True) where
  call_cache o := (BiGraph.blind_apply o).sub
  call_fresh o s _ hr hok := by
    cases o with
    | addEdges arg op =>
      exact (Ord.wipes_add .bi arg op (by simpa [Spec.renewB] using hr)).wipe s () hok
    | removeEdges arg => exact Ord.removeEdges_clears arg s hok
    | _ => rfl
  call_raw o := (BiGraph.blind_apply o).raw
  call_ok o := (BiGraph.blind_apply o).ans
  read_raw q := BiGraph.keeps_ask q
  read_cache q := (BiGraph.grows_ask q).grow
  read_nodup q := (BiGraph.grows_ask q).nodup
  make_cache x s hs := by
    have hs : BiGraph.new x.numU x.numV x.arg x.op = .ok s := hs
    unfold BiGraph.new at hs
    cases hr : BiGraph.initRaw (K := K) x.numU x.numV with
    | error e => rw [hr] at hs; cases hs
    | ok r =>
      rw [hr] at hs
      simp only [bind, Except.bind] at hs
      split at hs
      · cases hs; rfl
      · rename_i arg _
        have := (BiGraph.blind_apply (.addEdges arg x.op)).sub { raw := r, cache := [] }
        dsimp only [BiGraph.apply] at this
        split at hs
        · rename_i h; cases hs; rw [h] at this; exact List.sublist_nil.1 this
        · cases hs
  derive_cache d s s' hs := by
    cases d with
    | drop d =>
      have hs : BiGraph.dropEdges d.rate d.uniform d.rnd s = .ok s' := hs
      unfold BiGraph.dropEdges BiGraph.fromStateDict at hs
      split at hs
      · revert hs
        cases BiGraph.initRaw (K := K) s.raw.numU (s.raw.numV : Int) <;> intro hs <;> cases hs
        rfl
      · cases hs
    | switch =>
      have hs : BiGraph.switchUv s = .ok s' := hs
      unfold BiGraph.switchUv at hs
      revert hs
      cases BiGraph.clone s <;> intro hs <;> cases hs
      rfl
  derive_eq d s s' h := by
    cases d with
    | drop d =>
      show BiGraph.dropEdges d.rate d.uniform d.rnd s = BiGraph.dropEdges d.rate d.uniform d.rnd s'
      unfold BiGraph.dropEdges; rw [h]
    | switch =>
      show BiGraph.switchUv s = BiGraph.switchUv s'
      unfold BiGraph.switchUv BiGraph.clone
      rw [h]
      cases BiGraph.initRaw (K := K) s'.raw.numU (s'.raw.numV : Int) <;> rfl
  clone_cache s s' hs := by
    have hs : BiGraph.clone s = .ok s' := hs
    unfold BiGraph.clone at hs
    revert hs
    cases BiGraph.initRaw (K := K) s.raw.numU (s.raw.numV : Int) <;> intro hs <;> cases hs
    rfl
  ok_nil _ := trivial
  call_inv _ _ _ := trivial
  read_inv _ _ _ := trivial
  clone_inv _ _ _ _ := trivial
  clone_raw s s' h := by
    show (BiGraph.clone s).map _ = (BiGraph.clone s').map _
    unfold BiGraph.clone
    rw [h]
    cases BiGraph.initRaw (K := K) s'.raw.numU (s'.raw.numV : Int) <;> rfl


/-! ### Hypergraphs -/

/-- group names are kept -/
def NamesGrow {α : Type} (m : PyM (HSt K) α) : Prop :=
  ∀ s n, s.raw.groups.has n = true → (m s).2.raw.groups.has n = true

theorem NamesGrow.of_raw {α : Type} {m : PyM (HSt K) α} (h : ∀ s, (m s).2.raw = s.raw) : NamesGrow m :=
  fun s n hn => by rw [h s]; exact hn
theorem NamesGrow.bind {α β : Type} {m : PyM (HSt K) α} {f : α → PyM (HSt K) β} (hm : NamesGrow m)
    (hf : ∀ a, NamesGrow (f a)) : NamesGrow (m >>= f) := by
  intro s n hn
  simp only [PyM.bind_apply]
  have := hm s n hn
  rcases hms : m s with ⟨_ | a, t⟩ <;> rw [hms] at this
  · exact this
  · exact hf a t n this
theorem NamesGrow.forM {β : Type} {xs : List β} {f : β → PyM (HSt K) Unit} (hf : ∀ x, NamesGrow (f x)) :
    NamesGrow (PyM.forM xs f) := by
  induction xs with
  | nil => exact .of_raw fun _ => rfl
  | cons x xs ih => exact .bind (hf x) fun _ => ih
theorem NamesGrow.setRawH {f : HRaw K → HRaw K} (hf : ∀ r n, n ∈ r.groups.keys → n ∈ (f r).groups.keys) :
    NamesGrow (Hyper.setRawH f) := by
  intro s n hn
  exact (Dict.has_iff _ _).2 (hf _ _ ((Dict.has_iff _ _).1 hn))
theorem NamesGrow.clear (g : Option String) : NamesGrow (Hyper.clearCacheH (K := K) g) := by
  cases g <;> exact .of_raw fun _ => rfl
theorem NamesGrow.assert (b : Bool) : NamesGrow (PyM.assert b : PyM (HSt K) Unit) := by
  cases b <;> exact .of_raw fun _ => rfl

theorem names_addHyperedge (e : List Int) (w : K) (op : MergeOp) (g : String) :
    NamesGrow (Hyper.addHyperedge e w op g) := by
  have hset : ∀ d : HGroup K, NamesGrow (Hyper.setRawH fun r : HRaw K => { r with groups := r.groups.set g d }) :=
    fun d => .setRawH fun r n hn => (Dict.mem_keys_set _ _ _ _).2 (.inr hn)
  unfold Hyper.addHyperedge
  refine .bind (.of_raw fun _ => rfl) fun r => ?_
  split
  · exact hset _
  · split
    · exact hset _
    · exact .bind (.of_raw fun _ => rfl) fun f => hset _

theorem names_addHyperedges (arg : HArg) (ew : HW K) (op : MergeOp) (g : String) :
    NamesGrow (Hyper.addHyperedges arg ew op g) := by
  unfold Hyper.addHyperedges
  exact .bind (.of_raw fun _ => rfl) fun es => .bind (.of_raw fun _ => rfl) fun ws =>
    .bind (.assert _) fun _ => .bind (.forM fun p => names_addHyperedge _ _ _ _) fun _ => .clear _

theorem names_removeOne (g : Option String) (e : List Int) : NamesGrow (Hyper.removeOne (K := K) g e) := by
  unfold Hyper.removeOne
  cases g with
  | none =>
    refine .setRawH fun r n hn => ?_
    show n ∈ Dict.keys (Hyper.popAll e r.groups)
    unfold Hyper.popAll Dict.keys
    rw [List.map_map]
    exact hn
  | some g =>
    refine .setRawH fun r n hn => ?_
    show n ∈ Dict.keys (Hyper.popOne g e r.groups)
    unfold Hyper.popOne
    split
    · exact hn
    · exact (Dict.mem_keys_set _ _ _ _).2 (.inr hn)

theorem names_removeHyperedges (arg : HArg) (g : Option String) :
    NamesGrow (Hyper.removeHyperedges (K := K) arg g) := by
  unfold Hyper.removeHyperedges
  exact .bind (.of_raw fun _ => rfl) fun r => .bind (.assert _) fun _ => .bind (.of_raw fun _ => rfl) fun es =>
    .bind (.forM fun p => names_removeOne _ _) fun _ => .clear _

theorem keysOk_of_grow {m : PyM (HSt K) Unit} (hm : NamesGrow m) (hb : Blind m) (s : HSt K)
    (h : Hyper.KeysOk s.raw (s.cache.map Prod.fst)) : Hyper.KeysOk (m s).2.raw ((m s).2.cache.map Prod.fst) :=
  fun k hk g hg => hm s g (h k (((hb.sub s).map Prod.fst).subset hk) g hg)

theorem has_del_ne {ν : Type} (d : Dict String ν) {g n : String} (h : n ≠ g) (hn : n ∈ d.keys) :
    n ∈ (d.del g).keys := by
  induction d with
  | nil => cases hn
  | cons p d ih =>
    obtain ⟨a, b⟩ := p
    simp only [Dict.del]
    rw [Dict.keys_cons] at hn
    split
    · rename_i hag
      rcases List.mem_cons.1 hn with h1 | h1
      · exact absurd (h1.trans hag) h
      · exact h1
    · rw [Dict.keys_cons]
      rcases List.mem_cons.1 hn with h1 | h1
      · exact List.mem_cons.2 (.inl h1)
      · exact List.mem_cons_of_mem _ (ih h1)

/-- a run that does not raise leaves only results of other groups -/
def ClearsGroup {α : Type} (g : String) (m : PyM (HSt K) α) : Prop :=
  ∀ s a, (m s).1 = .ok a → ∀ p ∈ (m s).2.cache, p.1.1 ≠ none ∧ p.1.1 ≠ some g

theorem ClearsGroup.bind {α β : Type} {g : String} {m : PyM (HSt K) α} {f : α → PyM (HSt K) β}
    (hf : ∀ a, ClearsGroup g (f a)) : ClearsGroup g (m >>= f) := by
  intro s b hok
  simp only [PyM.bind_apply] at hok ⊢
  rcases hms : m s with ⟨_ | a, t⟩ <;> rw [hms] at hok
  · cases hok
  · exact hf a t b hok

theorem ClearsGroup.clear (g : String) : ClearsGroup g (Hyper.clearCacheH (K := K) (some g)) :=
  fun _ _ _ _ hp => of_decide_eq_true (List.mem_filter.1 hp).2

theorem cache_only {s : HSt K} {c : Dict HKey (HVal K)} {g : String}
    (h : Hyper.KeysOk s.raw (s.cache.map Prod.fst)) (hall : s.raw.groups.keys.all (· = g) = true)
    (hsub : c.Sublist s.cache) (hc : ∀ p ∈ c, p.1.1 ≠ none ∧ p.1.1 ≠ some g) : c = [] := by
  refine List.eq_nil_iff_forall_not_mem.2 fun p hp => ?_
  have h1 := hc p hp
  cases hk : p.1.1 with
  | none => exact h1.1 hk
  | some n =>
    have h2 := h p.1 (List.mem_map_of_mem (hsub.subset hp)) n hk
    have h3 := List.all_eq_true.1 hall n ((Dict.has_iff _ _).1 h2)
    have h4 : n = g := of_decide_eq_true h3
    exact h1.2 (h4 ▸ hk)

theorem live_hypergraph : Live.Lawful (Heap.hypergraph (K := K)) Spec.renewH Hyper.KeysOk where
  call_cache o := (Hyper.blind_apply o).sub
  call_fresh o s h hr hok := by
    have hsub := (Hyper.blind_apply o).sub s
    cases o with
    | addHyperedges arg ew op g =>
      refine cache_only h hr hsub fun p hp => ?_
      have : ClearsGroup g (Hyper.addHyperedges arg ew op g) := by
        unfold Hyper.addHyperedges
        exact .bind fun _ => .bind fun _ => .bind fun _ => .bind fun _ => .clear g
      exact this s () hok p hp
    | removeHyperedges arg g =>
      cases g with
      | none =>
        have : Wipes (Hyper.removeHyperedges (K := K) arg none) := by
          unfold Hyper.removeHyperedges; blind
        exact this.wipe s () hok
      | some g =>
        refine cache_only h hr hsub fun p hp => ?_
        have : ClearsGroup g (Hyper.removeHyperedges (K := K) arg (some g)) := by
          unfold Hyper.removeHyperedges
          exact .bind fun _ => .bind fun _ => .bind fun _ => .bind fun _ => .clear g
        exact this s () hok p hp
    | removeGroup g =>
      have : ClearsGroup g (Hyper.removeGroup (K := K) g) := .bind fun _ => .clear g
      exact cache_only h hr hsub fun p hp => this s () hok p hp
    | clear => rfl
    | setVWeight w => cases hr
  call_raw o := (Hyper.blind_apply o).raw
  call_ok o := (Hyper.blind_apply o).ans
  read_raw q := (Hyper.keeps_ask q).keep
  read_cache q := (Hyper.grows_ask q).grow
  read_nodup q := (Hyper.grows_ask q).nodup
  make_cache x s hs := by
    have hs : Hyper.new x.numV x.arg x.ew x.vw x.op = .ok s := hs
    unfold Hyper.new at hs
    cases hr : Hyper.initRaw (K := K) x.numV x.vw with
    | error e => rw [hr] at hs; cases hs
    | ok r =>
      rw [hr] at hs
      simp only [bind, Except.bind] at hs
      split at hs
      · cases hs; rfl
      · rename_i arg _
        have := (Hyper.blind_apply (.addHyperedges arg x.ew x.op "main")).sub { raw := r, cache := [] }
        dsimp only [Hyper.apply] at this
        split at hs
        · rename_i h; cases hs; rw [h] at this; exact List.sublist_nil.1 this
        · cases hs
  derive_cache d s s' hs := by
    have hload : ∀ (x : Hyper.StateDict K) (t : HSt K), Hyper.fromStateDict x = .ok t → t.cache = [] := by
      intro x t h
      unfold Hyper.fromStateDict at h
      revert h
      cases Hyper.initRaw (K := K) (x.numV : Int) none <;> intro h <;> cases h
      rfl
    cases d with
    | drop d =>
      have hs : Hyper.dropHyperedges d.rate d.uniform d.rnd s = .ok s' := hs
      unfold Hyper.dropHyperedges at hs
      split at hs
      · exact hload _ _ hs
      · cases hs
    | dropGroup g d =>
      have hs : Hyper.dropHyperedgesOfGroup g d.rate d.uniform d.rnd s = .ok s' := hs
      unfold Hyper.dropHyperedgesOfGroup at hs
      split at hs
      · exact hload _ _ hs
      · cases hs
    | sub vs k =>
      have hs : Hyper.subgraph vs k s = .ok s' := hs
      unfold Hyper.subgraph at hs
      dsimp only at hs
      split at hs
      · split at hs
        · revert hs
          cases hl : Hyper.fromStateDict (K := K)
            { numV := (Hyper.sortedSet vs).length
              groups := s.raw.groups.map fun p => (p.1, Hyper.subGroup (Hyper.sortedSet vs) k p.2) } with
          | error e => intro hs; cases hs
          | ok t =>
            intro hs
            simp only [bind, Except.bind] at hs
            split at hs
            · cases hs; exact hload _ _ hl
            · cases hs; exact hload _ t hl
        · cases hs
      · cases hs
  derive_eq d s s' h := by
    cases d with
    | drop d =>
      show Hyper.dropHyperedges d.rate d.uniform d.rnd s = Hyper.dropHyperedges d.rate d.uniform d.rnd s'
      unfold Hyper.dropHyperedges; rw [h]
    | dropGroup g d =>
      show Hyper.dropHyperedgesOfGroup g d.rate d.uniform d.rnd s =
        Hyper.dropHyperedgesOfGroup g d.rate d.uniform d.rnd s'
      unfold Hyper.dropHyperedgesOfGroup; rw [h]
    | sub vs k =>
      show Hyper.subgraph vs k s = Hyper.subgraph vs k s'
      unfold Hyper.subgraph; rw [h]
  clone_cache s s' hs := by
    have hs : Hyper.clone s = .ok s' := hs
    unfold Hyper.clone at hs
    revert hs
    cases Hyper.initRaw (K := K) (s.raw.numV : Int) none <;> intro hs <;> cases hs
    rfl
  ok_nil _ _ hk := by cases hk
  call_inv o s h := by
    have hb := Hyper.blind_apply o
    cases o with
    | addHyperedges arg ew op g => exact keysOk_of_grow (names_addHyperedges arg ew op g) hb s h
    | removeHyperedges arg g => exact keysOk_of_grow (names_removeHyperedges arg g) hb s h
    | setVWeight w => exact h
    | clear => intro k hk; cases hk
    | removeGroup g =>
      intro k hk n hn
      obtain ⟨p, hp, rfl⟩ := List.mem_map.1 hk
      have hcl : ClearsGroup g (Hyper.removeGroup (K := K) g) := .bind fun _ => .clear g
      have h1 := hcl s () rfl p hp
      have h2 := h p.1 (List.mem_map_of_mem ((hb.sub s).subset hp)) n hn
      refine (Dict.has_iff _ _).2 (has_del_ne s.raw.groups (g := g) ?_ ((Dict.has_iff _ _).1 h2))
      rintro rfl
      exact h1.2 hn
  read_inv q s h := (Hyper.scoped_ask q).keys s h
  clone_inv s s' hs h := by
    have hs : Hyper.clone s = .ok s' := hs
    unfold Hyper.clone at hs
    revert hs
    cases Hyper.initRaw (K := K) (s.raw.numV : Int) none <;> intro hs <;> cases hs
    exact h
  clone_raw s s' h := by
    show (Hyper.clone s).map _ = (Hyper.clone s').map _
    unfold Hyper.clone
    rw [h]
    cases Hyper.initRaw (K := K) (s'.raw.numV : Int) none <;> rfl

end Live
end DHG
