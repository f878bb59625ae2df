import Verif.Props.Shapes
import Verif.Props.GraphMessages
import Verif.Props.DiGraphMatrices
import Verif.Props.BiGraphMatrices
import Verif.Props.HyperMessages
import Mathlib.Tactic.Linarith
import Mathlib.Tactic.Ring
import Mathlib.Tactic.FieldSimp

/-!
# How `softmax_then_sum` answers to its scores (C139)
-/

set_option linter.unusedSectionVars false
set_option autoImplicit false

namespace DHG

variable {K : Type} [Field K] [LinearOrder K] [PyReal K]

namespace Spec

/-- the scores `w` after `d i` was added to the score of every message that arrives at `i` -/
def shifted (recv : List Nat) (d : Nat → K) (w : List K) : List K :=
  List.zipWith (fun x i => x + d i) w recv

/-- the plain average of the features that arrive at `i`: `y` times the number of messages is their sum -/
def PlainAverage (send recv : List Nat) (x : Nat → K) (i : Nat) (y : K) : Prop :=
  y * (recv.count i : K) = incoming send recv (List.replicate recv.length 1) x i

/-- `Y'` is `Y` with row `i` moved towards row `j` of `X`, part of the way -/
def MovedTowards (i j : Nat) (X Y Y' : Dense K) : Prop :=
  Y'.rows = Y.rows ∧ Y'.cols = Y.cols ∧
  (∃ t : K, 0 < t ∧ t < 1 ∧ ∀ c, Y'.at_ i c = Y.at_ i c + t * (X.at_ j c - Y.at_ i c)) ∧
  ∀ i' c, i' ≠ i → Y'.at_ i' c = Y.at_ i' c

end Spec

namespace Props
namespace Att

/-- the coefficients of a softmax (the conclusion of C14) -/
def Coefs (send recv : List Nat) (w coef : List K) (z : Nat → K) : Prop :=
  coef.length = recv.length ∧ (∀ i, i ∈ recv → 0 < z i) ∧
  (∀ k (h1 : k < coef.length) (h2 : k < w.length) (h3 : k < recv.length),
    coef[k] * z recv[k] = PyReal.exp w[k] ∧ 0 < coef[k]) ∧
  (∀ i, i ∈ recv → Spec.incoming send recv coef (fun _ => 1) i = 1)

/-- scaling the coefficients of one receiver -/
theorem incoming_scale (x : Nat → K) (i : Nat) (ρ : K) : ∀ (send recv : List Nat) (a b : List K), a.length = recv.length →
    b.length = recv.length → (∀ k (h1 : k < a.length) (h2 : k < b.length) (h3 : k < recv.length), recv[k] = i → b[k] = ρ * a[k]) →
    Spec.incoming send recv b x i = ρ * Spec.incoming send recv a x i := by
  intro send
  induction send with
  | nil => intro recv a b _ _ _; simp [Spec.incoming]
  | cons s send ih =>
    intro recv a b ha hb h
    cases recv with
    | nil => simp [Spec.incoming]
    | cons r recv =>
      cases a with
      | nil => simp at ha
      | cons x0 a =>
        cases b with
        | nil => simp at hb
        | cons y0 b =>
          have h0 := h 0 (by simp) (by simp) (by simp)
          simp only [List.getElem_cons_zero] at h0
          have ht := ih recv a b (by simpa using ha) (by simpa using hb) (fun k h1 h2 h3 hk => by
            have := h (k + 1) (by simpa using h1) (by simpa using h2) (by simpa using h3)
            simp only [List.getElem_cons_succ] at this
            exact this hk)
          simp only [Spec.incoming]
          rw [ht]
          split
          · rename_i hr; rw [h0 hr]; ring
          · ring

/-- changing one coefficient -/
theorem incoming_set (x : Nat → K) (i : Nat) (y : K) : ∀ (send recv : List Nat) (a : List K) (k j r : Nat) (h : k < a.length),
    send[k]? = some j → recv[k]? = some r →
    Spec.incoming send recv (a.set k y) x i = Spec.incoming send recv a x i + if r = i then (y - a[k]) * x j else 0 := by
  intro send
  induction send with
  | nil => intro recv a k j r _ hj; simp at hj
  | cons s send ih =>
    intro recv a k j r h hj hr
    cases recv with
    | nil => simp at hr
    | cons r0 recv =>
      cases a with
      | nil => simp at h
      | cons x0 a =>
        cases k with
        | zero =>
          simp only [List.getElem?_cons_zero, Option.some.injEq] at hj hr
          subst hj hr
          simp only [List.set_cons_zero, Spec.incoming, List.getElem_cons_zero]
          split
          · ring
          · ring
        | succ k =>
          simp only [List.getElem?_cons_succ] at hj hr
          have := ih recv a k j r (by simpa using h) hj hr
          simp only [List.set_cons_succ, Spec.incoming, List.getElem_cons_succ]
          rw [this]; ring

theorem incoming_none (x : Nat → K) (i : Nat) : ∀ (send recv : List Nat) (a : List K), i ∉ recv →
    Spec.incoming send recv a x i = 0 := by
  intro send
  induction send with
  | nil => intro recv a _; simp [Spec.incoming]
  | cons s send ih =>
    intro recv a h
    cases recv with
    | nil => simp [Spec.incoming]
    | cons r recv =>
      cases a with
      | nil => simp [Spec.incoming]
      | cons x0 a =>
        simp only [List.mem_cons, not_or] at h
        simp only [Spec.incoming]
        rw [if_neg (fun e => h.1 e.symm), ih recv a h.2, add_zero]

theorem incoming_ones (i : Nat) : ∀ (send recv : List Nat), send.length = recv.length →
    Spec.incoming send recv (List.replicate recv.length 1) (fun _ => (1 : K)) i = (recv.count i : K) := by
  intro send
  induction send with
  | nil => intro recv h; cases recv with
    | nil => simp [Spec.incoming]
    | cons r recv => simp at h
  | cons s send ih =>
    intro recv h
    cases recv with
    | nil => simp at h
    | cons r recv =>
      simp only [List.length_cons, List.replicate_succ, Spec.incoming, List.count_cons]
      rw [ih recv (by simpa using h)]
      by_cases hr : r = i
      · subst hr; simp [add_comm]
      · simp [hr]

variable [IsStrictOrderedRing K]

/-- if the two score lists differ by a shift at the receiver `i`, what arrives at `i` is the same -/
theorem same_at {send recv : List Nat} {w w' a b : List K} {z z' : Nat → K} (h : Coefs send recv w a z)
    (h' : Coefs send recv w' b z') (hw : w.length = recv.length) (hw' : w'.length = recv.length) (i : Nat) (e : K)
    (hs : ∀ k (h1 : k < w.length) (h2 : k < w'.length) (h3 : k < recv.length), recv[k] = i → w'[k] = w[k] + e)
    (x : Nat → K) : Spec.incoming send recv b x i = Spec.incoming send recv a x i := by
  obtain ⟨ha, hz, hc, h1⟩ := h
  obtain ⟨hb, hz', hc', h1'⟩ := h'
  by_cases hi : i ∈ recv
  · have hz0 := (hz' i hi).ne'
    have hk : ∀ k (h1 : k < a.length) (h2 : k < b.length) (h3 : k < recv.length), recv[k] = i →
        b[k] = (z i * PyReal.exp e / z' i) * a[k] := by
      intro k q1 q2 q3 hr
      have e1 := (hc k q1 (by omega) q3).1
      have e2 := (hc' k q2 (by omega) q3).1
      rw [hr] at e1 e2
      rw [hs k (by omega) (by omega) q3 hr, PyReal.exp_add, ← e1] at e2
      field_simp
      linear_combination e2
    have t := incoming_scale (fun _ => 1) i _ send recv a b ha hb hk
    rw [h1 i hi, h1' i hi, mul_one] at t
    rw [incoming_scale x i _ send recv a b ha hb hk, ← t, one_mul]
  · rw [incoming_none x i send recv b hi, incoming_none x i send recv a hi]

theorem shifted_length {recv : List Nat} (d : Nat → K) {w : List K} (hw : w.length = recv.length) :
    (Spec.shifted recv d w).length = recv.length := by
  simp [Spec.shifted, hw]

theorem shift_sum {send recv : List Nat} {w a b : List K} {z z' : Nat → K} {d : Nat → K} (h : Coefs send recv w a z)
    (hw : w.length = recv.length) (h' : Coefs send recv (Spec.shifted recv d w) b z') (i : Nat) (x : Nat → K) :
    Spec.incoming send recv b x i = Spec.incoming send recv a x i :=
  same_at h h' hw (shifted_length d hw) i (d i) (fun k h1 h2 h3 hr => by simp [Spec.shifted, hr]) x

/-- raising the score of one message -/
theorem raise_sum {send recv : List Nat} {w a b : List K} {z z' : Nat → K} (h : Coefs send recv w a z)
    (hw : w.length = recv.length) {k i j : Nat} (hj : send[k]? = some j) (hr : recv[k]? = some i) {v u : K}
    (hv : w[k]? = some v) (hu : v < u) (h' : Coefs send recv (w.set k u) b z') :
    ∃ t : K, 0 < t ∧ t < 1 ∧ ∀ x : Nat → K,
      Spec.incoming send recv b x i = Spec.incoming send recv a x i + t * (x j - Spec.incoming send recv a x i) := by
  obtain ⟨ha, hz, hc, h1⟩ := h
  obtain ⟨hb, hz', hc', h1'⟩ := h'
  obtain ⟨hk, hki⟩ := List.getElem?_eq_some_iff.1 hr
  obtain ⟨hkw, hkv⟩ := List.getElem?_eq_some_iff.1 hv
  have hi : i ∈ recv := List.mem_of_getElem? hr
  have hz0 := hz' i hi
  have hzp := hz i hi
  have hne := hz0.ne'
  obtain ⟨p1, p2⟩ := hc k (by omega) hkw hk
  obtain ⟨q1, q2⟩ := hc' k (by omega) (by simpa using hkw) hk
  rw [hki] at p1 q1
  rw [hkv] at p1
  rw [List.getElem_set_self] at q1
  have hb' : k < b.length := by omega
  have key : ∀ x : Nat → K, Spec.incoming send recv b x i =
      z i / z' i * Spec.incoming send recv a x i + (b[k] - z i / z' i * a[k]) * x j := by
    intro x
    have e := incoming_set x i (z i / z' i * a[k]) send recv b k j i hb' hj hr
    rw [if_pos rfl] at e
    have e2 := incoming_scale x i (z i / z' i) send recv a (b.set k (z i / z' i * a[k])) ha (by simpa using hb)
      (by
        intro l l1 l2 l3 hl
        rw [List.getElem_set]
        split
        · rename_i hkl; subst hkl; rfl
        · rename_i hkl
          have e1 := (hc l l1 (by omega) l3).1
          have e2 := (hc' l (by omega) (by simpa using (by omega : l < w.length)) l3).1
          rw [List.getElem_set_ne hkl] at e2
          rw [hl] at e1 e2
          rw [← e1] at e2
          field_simp
          linear_combination e2)
    linear_combination e2 - e
  have hone := key fun _ => 1
  rw [h1 i hi, h1' i hi, mul_one, mul_one] at hone
  have hpos : 0 < z i / z' i := div_pos hzp hz0
  refine ⟨1 - z i / z' i, ?_, by linarith, fun x => ?_⟩
  · have hm := PyReal.exp_mono v u hu
    rw [← p1, ← q1] at hm
    have : z i / z' i * a[k] < b[k] := by
      rw [div_mul_eq_mul_div, div_lt_iff₀ hz0]; linarith
    linarith
  · rw [key x]
    linear_combination (-x j) * hone

theorem raise_other {send recv : List Nat} {w a b : List K} {z z' : Nat → K} (h : Coefs send recv w a z)
    (hw : w.length = recv.length) {k i : Nat} (hr : recv[k]? = some i) {u : K}
    (h' : Coefs send recv (w.set k u) b z') (i' : Nat) (hi : i' ≠ i) (x : Nat → K) :
    Spec.incoming send recv b x i' = Spec.incoming send recv a x i' := by
  refine same_at h h' hw (by simpa using hw) i' 0 (fun l l1 l2 l3 hl => ?_) x
  rw [add_zero, List.getElem_set_ne]
  rintro rfl
  rw [List.getElem?_eq_getElem l3, hl] at hr
  exact hi (Option.some.inj hr)

theorem equal_sum {send recv : List Nat} {w a : List K} {z : Nat → K} (h : Coefs send recv w a z)
    (hw : w.length = recv.length) (hl : send.length = recv.length) (i : Nat) (hi : i ∈ recv) (e : K)
    (he : ∀ k (h1 : k < w.length) (h3 : k < recv.length), recv[k] = i → w[k] = e) (x : Nat → K) :
    Spec.PlainAverage send recv x i (Spec.incoming send recv a x i) := by
  obtain ⟨ha, hz, hc, h1⟩ := h
  have hne := (hz i hi).ne'
  have hk : ∀ k (h1 : k < (List.replicate recv.length (1 : K)).length) (h2 : k < a.length) (h3 : k < recv.length), recv[k] = i →
      a[k] = (PyReal.exp e / z i) * (List.replicate recv.length (1 : K))[k] := by
    intro k q1 q2 q3 hr
    have e1 := (hc k q2 (by omega) q3).1
    rw [hr, he k (by omega) q3 hr] at e1
    rw [List.getElem_replicate, mul_one, ← e1]
    field_simp
  have t := incoming_scale (fun _ => (1 : K)) i _ send recv _ a (by simp) ha hk
  rw [h1 i hi, incoming_ones i send recv hl] at t
  unfold Spec.PlainAverage
  rw [incoming_scale x i _ send recv _ a (by simp) ha hk]
  linear_combination (-Spec.incoming send recv (List.replicate recv.length 1) x i) * t

theorem dense_ext {X Y : Dense K} (h1 : X.rows = Y.rows) (h2 : X.cols = Y.cols) (h3 : ∀ i c, X.at_ i c = Y.at_ i c) : X = Y := by
  cases X; cases Y
  simp only [Dense.mk.injEq]
  exact ⟨h1, h2, funext fun i => funext fun c => h3 i c⟩

/-- what the theorems below need of a call: the answers `run w Y` are those of C14 and have one shape -/
def Soft (send recv : List Nat) (X : Dense K) (rows : Nat) (run : List K → Dense K → Prop) : Prop :=
  ∀ w : List K, w.length = recv.length → ∃ (Y : Dense K) (coef : List K) (z : Nat → K), run w Y ∧
    Y.rows = rows ∧ Y.cols = X.cols ∧
    (∀ i c, Y.at_ i c = Spec.incoming send recv coef (fun j => X.at_ j c) i) ∧ Coefs send recv w coef z

variable {send recv : List Nat} {X : Dense K} {rows : Nat} {run : List K → Dense K → Prop}

theorem Soft.shift (h : Soft send recv X rows run) (w : List K) (hw : w.length = recv.length) (d : Nat → K) :
    ∃ Y, run w Y ∧ run (Spec.shifted recv d w) Y := by
  obtain ⟨Y, a, z, r1, r2, r3, r4, r5⟩ := h w hw
  obtain ⟨Y', b, z', s1, s2, s3, s4, s5⟩ := h (Spec.shifted recv d w) (shifted_length d hw)
  have : Y' = Y := dense_ext (s2.trans r2.symm) (s3.trans r3.symm) (fun i c => by
    rw [s4, r4, shift_sum r5 hw s5])
  exact ⟨Y, r1, this ▸ s1⟩

theorem Soft.raise (h : Soft send recv X rows run) (w : List K) (hw : w.length = recv.length) {k i j : Nat}
    (hj : send[k]? = some j) (hr : recv[k]? = some i) {v u : K} (hv : w[k]? = some v) (hu : v < u) :
    ∃ Y Y', run w Y ∧ run (w.set k u) Y' ∧ Spec.MovedTowards i j X Y Y' := by
  obtain ⟨Y, a, z, r1, r2, r3, r4, r5⟩ := h w hw
  obtain ⟨Y', b, z', s1, s2, s3, s4, s5⟩ := h (w.set k u) (by simpa using hw)
  obtain ⟨t, t0, t1, ht⟩ := raise_sum r5 hw hj hr hv hu s5
  exact ⟨Y, Y', r1, s1, s2.trans r2.symm, s3.trans r3.symm, ⟨t, t0, t1, fun c => by rw [s4, r4, ht]⟩,
    fun i' c hi => by rw [s4, r4, raise_other r5 hw hr s5 i' hi]⟩

theorem Soft.equal (h : Soft send recv X rows run) (hl : send.length = recv.length) (w : List K) (hw : w.length = recv.length) :
    ∃ Y, run w Y ∧ ∀ i ∈ recv, ∀ e : K, (∀ k (h1 : k < w.length) (h3 : k < recv.length), recv[k] = i → w[k] = e) →
      ∀ c, Spec.PlainAverage send recv (fun j => X.at_ j c) i (Y.at_ i c) := by
  obtain ⟨Y, a, z, r1, r2, r3, r4, r5⟩ := h w hw
  exact ⟨Y, r1, fun i hi e he c => by rw [r4]; exact equal_sum r5 hw hl i hi e he _⟩

end Att

open Att
open Graph (NonNeg)

variable [IsStrictOrderedRing K]

section
variable {g : GSt K} {n : Nat} {src dst : List Nat}

theorem Att.graph (hg : Graph.Built NonNeg g) (hn : (Graph.ask .numV g).1 = .ok (.num n)) (he : EdgeVecs g src dst)
    (X : Dense K) (hX : X.rows = n) (keep : Nat → Bool) :
    Soft src dst X n fun w Y => (Graph.ask (.v2v X .softmax (some w) 0 keep) g).1 = .ok (.feat Y) := by
  intro w hw
  obtain ⟨Y, coef, z, hY, h1, h2, h3⟩ := C14_graph_softmax hg hn he w hw X hX keep
  have hs := (C100_graph hg hn X Y 0 keep).1 _ _ hY
  exact ⟨Y, coef, z, hY, hs.rows, hs.cols, h2, h1, h3⟩

/-- C139 (Graph). Adding one amount to the scores of all messages to the same receiver (another amount for
another receiver) leaves the answer as it was. -/
theorem C139_graph_shift (hg : Graph.Built NonNeg g) (hn : (Graph.ask .numV g).1 = .ok (.num n)) (he : EdgeVecs g src dst)
    (X : Dense K) (hX : X.rows = n) (keep : Nat → Bool) (w : List K) (hw : w.length = dst.length) (d : Nat → K) :
    ∃ Y, (Graph.ask (.v2v X .softmax (some w) 0 keep) g).1 = .ok (.feat Y) ∧
      (Graph.ask (.v2v X .softmax (some (Spec.shifted dst d w)) 0 keep) g).1 = .ok (.feat Y) :=
  (Att.graph hg hn he X hX keep).shift w hw d

/-- C139 (Graph). Raising the score of one message moves the row of its receiver towards the features of
its sender, part of the way, and changes no other row. -/
theorem C139_graph_raise (hg : Graph.Built NonNeg g) (hn : (Graph.ask .numV g).1 = .ok (.num n)) (he : EdgeVecs g src dst)
    (X : Dense K) (hX : X.rows = n) (keep : Nat → Bool) (w : List K) (hw : w.length = dst.length) {k i j : Nat}
    (hj : src[k]? = some j) (hi : dst[k]? = some i) {v u : K} (hv : w[k]? = some v) (hu : v < u) :
    ∃ Y Y', (Graph.ask (.v2v X .softmax (some w) 0 keep) g).1 = .ok (.feat Y) ∧
      (Graph.ask (.v2v X .softmax (some (w.set k u)) 0 keep) g).1 = .ok (.feat Y') ∧ Spec.MovedTowards i j X Y Y' :=
  (Att.graph hg hn he X hX keep).raise w hw hj hi hv hu

/-- C139 (Graph). A receiver whose messages all have the same score gets the plain average of their features. -/
theorem C139_graph_equal (hg : Graph.Built NonNeg g) (hn : (Graph.ask .numV g).1 = .ok (.num n)) (he : EdgeVecs g src dst)
    (X : Dense K) (hX : X.rows = n) (keep : Nat → Bool) (w : List K) (hw : w.length = dst.length) :
    ∃ Y, (Graph.ask (.v2v X .softmax (some w) 0 keep) g).1 = .ok (.feat Y) ∧
      ∀ i ∈ dst, ∀ e : K, (∀ k (_ : k < w.length) (_ : k < dst.length), dst[k] = i → w[k] = e) →
        ∀ c, Spec.PlainAverage src dst (fun j => X.at_ j c) i (Y.at_ i c) := by
  obtain ⟨A, _, _, h1, h2⟩ := he.ents hg
  exact (Att.graph hg hn he X hX keep).equal (by rw [h1, h2]; simp) w hw

end

section
variable {b : Bool} {g : DSt K} {n : Nat} {dir : Dir} {send recv : List Nat}

theorem Att.digraph (hg : DiGraph.Built NonNeg b g) (hn : (DiGraph.ask .numV g).1 = .ok (.num n))
    (he : Di.Ends g dir send recv) (X : Dense K) (hX : X.rows = n) (keep : Nat → Bool) :
    Soft send recv X n fun w Y => (DiGraph.ask (.v2v X .softmax (some w) dir 0 keep) g).1 = .ok (.feat Y) := by
  intro w hw
  obtain ⟨Y, coef, z, hY, h1, h2, h3⟩ := C14_digraph_softmax hg hn he w hw X hX keep
  have hs := C100_digraph hg hn X Y 0 keep _ _ _ hY
  exact ⟨Y, coef, z, hY, hs.rows, hs.cols, h2, h1, h3⟩

/-- C139 (DiGraph). -/
theorem C139_digraph_shift (hg : DiGraph.Built NonNeg b g) (hn : (DiGraph.ask .numV g).1 = .ok (.num n))
    (he : Di.Ends g dir send recv) (X : Dense K) (hX : X.rows = n) (keep : Nat → Bool) (w : List K)
    (hw : w.length = recv.length) (d : Nat → K) :
    ∃ Y, (DiGraph.ask (.v2v X .softmax (some w) dir 0 keep) g).1 = .ok (.feat Y) ∧
      (DiGraph.ask (.v2v X .softmax (some (Spec.shifted recv d w)) dir 0 keep) g).1 = .ok (.feat Y) :=
  (Att.digraph hg hn he X hX keep).shift w hw d

/-- C139 (DiGraph). -/
theorem C139_digraph_raise (hg : DiGraph.Built NonNeg b g) (hn : (DiGraph.ask .numV g).1 = .ok (.num n))
    (he : Di.Ends g dir send recv) (X : Dense K) (hX : X.rows = n) (keep : Nat → Bool) (w : List K)
    (hw : w.length = recv.length) {k i j : Nat}
    (hj : send[k]? = some j) (hi : recv[k]? = some i) {v u : K} (hv : w[k]? = some v) (hu : v < u) :
    ∃ Y Y', (DiGraph.ask (.v2v X .softmax (some w) dir 0 keep) g).1 = .ok (.feat Y) ∧
      (DiGraph.ask (.v2v X .softmax (some (w.set k u)) dir 0 keep) g).1 = .ok (.feat Y') ∧ Spec.MovedTowards i j X Y Y' :=
  (Att.digraph hg hn he X hX keep).raise w hw hj hi hv hu

/-- C139 (DiGraph). -/
theorem C139_digraph_equal (hg : DiGraph.Built NonNeg b g) (hn : (DiGraph.ask .numV g).1 = .ok (.num n))
    (he : Di.Ends g dir send recv) (X : Dense K) (hX : X.rows = n) (keep : Nat → Bool) (w : List K)
    (hw : w.length = recv.length) :
    ∃ Y, (DiGraph.ask (.v2v X .softmax (some w) dir 0 keep) g).1 = .ok (.feat Y) ∧
      ∀ i ∈ recv, ∀ e : K, (∀ k (_ : k < w.length) (_ : k < recv.length), recv[k] = i → w[k] = e) →
        ∀ c, Spec.PlainAverage send recv (fun j => X.at_ j c) i (Y.at_ i c) := by
  obtain ⟨A, tr, _, _, _, h1, h2⟩ := he.spec hg
  exact (Att.digraph hg hn he X hX keep).equal (by rw [h1, h2]; cases tr <;> simp) w hw

end

section
variable {g : BSt K} {m n : Nat} {tr : Bool} {send recv : List Nat}

theorem Att.bigraph (hg : BiGraph.Built NonNeg g) (hm : (BiGraph.ask .numU g).1 = .ok (.num m))
    (hn : (BiGraph.ask .numV g).1 = .ok (.num n)) (he : Bi.Ends g tr send recv) (X : Dense K)
    (hX : X.rows = if tr then m else n) (keep : Nat → Bool) :
    Soft send recv X (if tr then n else m) fun w Y =>
      (BiGraph.ask (Bi.pass tr X .softmax (some w) 0 keep) g).1 = .ok (.feat Y) := by
  intro w hw
  obtain ⟨Y, coef, z, hY, h1, h2, h3⟩ := C14_bigraph_softmax hg hm hn he w hw X hX keep
  obtain ⟨c1, c2, _⟩ := C100_bigraph hg hm hn X Y 0 keep
  cases tr with
  | true =>
    have hs := c1 .softmax (some w) hY
    exact ⟨Y, coef, z, hY, hs.rows, hs.cols, h2, h1, h3⟩
  | false =>
    have hs := c2 .softmax (some w) hY
    exact ⟨Y, coef, z, hY, hs.rows, hs.cols, h2, h1, h3⟩

/-- C139 (BiGraph, `u2v` and `v2u`). -/
theorem C139_bigraph_shift (hg : BiGraph.Built NonNeg g) (hm : (BiGraph.ask .numU g).1 = .ok (.num m))
    (hn : (BiGraph.ask .numV g).1 = .ok (.num n)) (he : Bi.Ends g tr send recv) (X : Dense K)
    (hX : X.rows = if tr then m else n) (keep : Nat → Bool) (w : List K) (hw : w.length = recv.length) (d : Nat → K) :
    ∃ Y, (BiGraph.ask (Bi.pass tr X .softmax (some w) 0 keep) g).1 = .ok (.feat Y) ∧
      (BiGraph.ask (Bi.pass tr X .softmax (some (Spec.shifted recv d w)) 0 keep) g).1 = .ok (.feat Y) :=
  (Att.bigraph hg hm hn he X hX keep).shift w hw d

/-- C139 (BiGraph, `u2v` and `v2u`). -/
theorem C139_bigraph_raise (hg : BiGraph.Built NonNeg g) (hm : (BiGraph.ask .numU g).1 = .ok (.num m))
    (hn : (BiGraph.ask .numV g).1 = .ok (.num n)) (he : Bi.Ends g tr send recv) (X : Dense K)
    (hX : X.rows = if tr then m else n) (keep : Nat → Bool) (w : List K) (hw : w.length = recv.length) {k i j : Nat}
    (hj : send[k]? = some j) (hi : recv[k]? = some i) {v u : K} (hv : w[k]? = some v) (hu : v < u) :
    ∃ Y Y', (BiGraph.ask (Bi.pass tr X .softmax (some w) 0 keep) g).1 = .ok (.feat Y) ∧
      (BiGraph.ask (Bi.pass tr X .softmax (some (w.set k u)) 0 keep) g).1 = .ok (.feat Y') ∧
      Spec.MovedTowards i j X Y Y' :=
  (Att.bigraph hg hm hn he X hX keep).raise w hw hj hi hv hu

/-- C139 (BiGraph, `u2v` and `v2u`). -/
theorem C139_bigraph_equal (hg : BiGraph.Built NonNeg g) (hm : (BiGraph.ask .numU g).1 = .ok (.num m))
    (hn : (BiGraph.ask .numV g).1 = .ok (.num n)) (he : Bi.Ends g tr send recv) (X : Dense K)
    (hX : X.rows = if tr then m else n) (keep : Nat → Bool) (w : List K) (hw : w.length = recv.length) :
    ∃ Y, (BiGraph.ask (Bi.pass tr X .softmax (some w) 0 keep) g).1 = .ok (.feat Y) ∧
      ∀ i ∈ recv, ∀ e : K, (∀ k (_ : k < w.length) (_ : k < recv.length), recv[k] = i → w[k] = e) →
        ∀ c, Spec.PlainAverage send recv (fun j => X.at_ j c) i (Y.at_ i c) := by
  have hn' := Bi.numV_eq hn
  have hm' := Bi.numU_eq hm
  obtain ⟨A, _, _, h1, h2⟩ := he.spec hg
  exact (Att.bigraph hg hm hn he X hX keep).equal (by rw [h1, h2]; cases tr <;> simp) w hw

end

section
variable {b : Bool} {s : HSt K} {sc : Option String} {h : Half} {send recv : List Nat} {m n : Nat}

theorem Att.hypergraph (hs : Hyper.Built Hyper.Proper b s) (hsc : Spec.HasScope s sc) (he : HEnds h s sc send recv)
    (hm : Senders h s sc m) (hn : Receivers h s sc n) (X : Dense K) (hX : X.rows = m) (keep : Nat → Bool) :
    Soft send recv X n fun w Y => (Hyper.ask (aggQ h sc X .softmax (some w) 0 keep) s).1 = .ok (.feat Y) := by
  intro w hw
  obtain ⟨Y, coef, z, hY, h1, h2, h3⟩ := C14_hypergraph_softmax hs hsc he hm w hw X hX keep
  cases h with
  | v2e =>
    have hp := (C100_hypergraph hs hsc hm hn X Y 0 keep).1 .softmax (some w) hY
    exact ⟨Y, coef, z, hY, hp.rows, hp.cols, h2, h1, h3⟩
  | e2v =>
    have hp := (C100_hypergraph hs hsc hn hm X Y 0 keep).2.2.1 .softmax (some w) hY
    exact ⟨Y, coef, z, hY, hp.rows, hp.cols, h2, h1, h3⟩

/-- C139 (Hypergraph, `v2e_aggregation` and `e2v_aggregation`, of the whole hypergraph or a group). -/
theorem C139_hypergraph_shift (hs : Hyper.Built Hyper.Proper b s) (hsc : Spec.HasScope s sc) (he : HEnds h s sc send recv)
    (hm : Senders h s sc m) (hn : Receivers h s sc n) (X : Dense K) (hX : X.rows = m) (keep : Nat → Bool)
    (w : List K) (hw : w.length = recv.length) (d : Nat → K) :
    ∃ Y, (Hyper.ask (aggQ h sc X .softmax (some w) 0 keep) s).1 = .ok (.feat Y) ∧
      (Hyper.ask (aggQ h sc X .softmax (some (Spec.shifted recv d w)) 0 keep) s).1 = .ok (.feat Y) :=
  (Att.hypergraph hs hsc he hm hn X hX keep).shift w hw d

/-- C139 (Hypergraph, `v2e_aggregation` and `e2v_aggregation`, of the whole hypergraph or a group). -/
theorem C139_hypergraph_raise (hs : Hyper.Built Hyper.Proper b s) (hsc : Spec.HasScope s sc) (he : HEnds h s sc send recv)
    (hm : Senders h s sc m) (hn : Receivers h s sc n) (X : Dense K) (hX : X.rows = m) (keep : Nat → Bool)
    (w : List K) (hw : w.length = recv.length) {k i j : Nat}
    (hj : send[k]? = some j) (hi : recv[k]? = some i) {v u : K} (hv : w[k]? = some v) (hu : v < u) :
    ∃ Y Y', (Hyper.ask (aggQ h sc X .softmax (some w) 0 keep) s).1 = .ok (.feat Y) ∧
      (Hyper.ask (aggQ h sc X .softmax (some (w.set k u)) 0 keep) s).1 = .ok (.feat Y') ∧ Spec.MovedTowards i j X Y Y' :=
  (Att.hypergraph hs hsc he hm hn X hX keep).raise w hw hj hi hv hu

/-- C139 (Hypergraph, `v2e_aggregation` and `e2v_aggregation`, of the whole hypergraph or a group). -/
theorem C139_hypergraph_equal (hs : Hyper.Built Hyper.Proper b s) (hsc : Spec.HasScope s sc) (he : HEnds h s sc send recv)
    (hm : Senders h s sc m) (hn : Receivers h s sc n) (X : Dense K) (hX : X.rows = m) (keep : Nat → Bool)
    (w : List K) (hw : w.length = recv.length) :
    ∃ Y, (Hyper.ask (aggQ h sc X .softmax (some w) 0 keep) s).1 = .ok (.feat Y) ∧
      ∀ i ∈ recv, ∀ e : K, (∀ k (_ : k < w.length) (_ : k < recv.length), recv[k] = i → w[k] = e) →
        ∀ c, Spec.PlainAverage send recv (fun j => X.at_ j c) i (Y.at_ i c) := by
  obtain ⟨P, _, _, _, _, h1, _⟩ := Hy.half_spec hs hsc h
  obtain ⟨e1, e2⟩ := h1 _ _ he
  exact (Att.hypergraph hs hsc he hm hn X hX keep).equal (by rw [e1, e2]; simp) w hw

end

/-! ### Without explicit scores -/

/-- the stored weights as scores: equal ones give the plain average -/
theorem Att.equal_default {send recv : List Nat} {ws : List K} {X Y : Dense K} {z : Nat → K}
    (hl : send.length = recv.length) (hw : ws.length = recv.length) (hz : ∀ i, i ∈ recv → 0 < z i)
    (h1 : ∀ i c, i ∈ recv → Y.at_ i c * z i = Spec.incoming send recv (ws.map PyReal.exp) (fun j => X.at_ j c) i)
    (h2 : ∀ i, i ∈ recv → z i = Spec.incoming send recv (ws.map PyReal.exp) (fun _ => 1) i)
    (i : Nat) (hi : i ∈ recv) (e : K) (he : ∀ k (_ : k < ws.length) (_ : k < recv.length), recv[k] = i → ws[k] = e) (c : Nat) :
    Spec.PlainAverage send recv (fun j => X.at_ j c) i (Y.at_ i c) := by
  have hk : ∀ k (h1 : k < (List.replicate recv.length (1 : K)).length) (h2 : k < (ws.map PyReal.exp).length) (h3 : k < recv.length),
      recv[k] = i → (ws.map PyReal.exp)[k] = PyReal.exp e * (List.replicate recv.length (1 : K))[k] := by
    intro k q1 q2 q3 hr
    rw [List.getElem_map, List.getElem_replicate, mul_one, he k (by omega) q3 hr]
  have a1 := h1 i c hi
  have a2 := h2 i hi
  rw [incoming_scale _ i _ send recv _ _ (by simp) (by simpa using hw) hk] at a1 a2
  rw [incoming_ones i send recv hl] at a2
  rw [a2] at a1
  have hp := PyReal.exp_pos e
  unfold Spec.PlainAverage
  apply mul_left_cancel₀ hp.ne'
  linear_combination a1

/-- C139 (DiGraph). Without explicit scores: a receiver whose edges have equal weights gets the plain average. -/
theorem C139_digraph_equal_default {b : Bool} {g : DSt K} {n : Nat} {dir : Dir} {send recv : List Nat}
    (hg : DiGraph.Built NonNeg b g) (hn : (DiGraph.ask .numV g).1 = .ok (.num n)) {ws : List K}
    (he : Di.Ends g dir send recv) (hws : (DiGraph.ask .eWeight g).1 = .ok (.vec ws)) (X : Dense K) (hX : X.rows = n)
    (keep : Nat → Bool) :
    ∃ Y, (DiGraph.ask (.v2v X .softmax none dir 0 keep) g).1 = .ok (.feat Y) ∧
      ∀ i ∈ recv, ∀ e : K, (∀ k (_ : k < ws.length) (_ : k < recv.length), recv[k] = i → ws[k] = e) →
        ∀ c, Spec.PlainAverage send recv (fun j => X.at_ j c) i (Y.at_ i c) := by
  obtain ⟨Y, z, hY, hz, h1, h2⟩ := C14_digraph_softmax_default hg hn he hws X hX keep
  obtain ⟨A, tr, hA, _, _, e1, e2⟩ := he.spec hg
  rw [hg.ask] at hws
  simp only [DiGraph.evAsk, hA, Except.map] at hws
  have hws' : ws = A.ents.map Prod.snd := by
    injection hws with h; injection h with h; exact h.symm
  have hl : send.length = recv.length := by rw [e1, e2]; cases tr <;> simp
  have hw : ws.length = recv.length := by rw [e1, hws']; cases tr <;> simp
  exact ⟨Y, hY, fun i hi e he c => Att.equal_default hl hw hz h1 h2 i hi e he c⟩

/-- C139 (BiGraph). Without explicit scores: a receiver whose edges have equal weights gets the plain average. -/
theorem C139_bigraph_equal_default {g : BSt K} {m n : Nat} {tr : Bool} {send recv : List Nat}
    (hg : BiGraph.Built NonNeg g) (hm : (BiGraph.ask .numU g).1 = .ok (.num m))
    (hn : (BiGraph.ask .numV g).1 = .ok (.num n)) {ws : List K} (he : Bi.Ends g tr send recv)
    (hws : (BiGraph.ask .eWeight g).1 = .ok (.vec ws)) (X : Dense K) (hX : X.rows = if tr then m else n) (keep : Nat → Bool) :
    ∃ Y, (BiGraph.ask (Bi.pass tr X .softmax none 0 keep) g).1 = .ok (.feat Y) ∧
      ∀ i ∈ recv, ∀ e : K, (∀ k (_ : k < ws.length) (_ : k < recv.length), recv[k] = i → ws[k] = e) →
        ∀ c, Spec.PlainAverage send recv (fun j => X.at_ j c) i (Y.at_ i c) := by
  obtain ⟨Y, z, hY, hz, h1, h2⟩ := C14_bigraph_softmax_default hg hm hn he hws X hX keep
  obtain ⟨A, hA, _, e1, e2⟩ := he.spec hg
  rw [hg.ask] at hws
  simp only [BiGraph.evAsk, hA, Except.map] at hws
  have hws' : ws = A.ents.map Prod.snd := by
    injection hws with h; injection h with h; exact h.symm
  have hl : send.length = recv.length := by rw [e1, e2]; cases tr <;> simp
  have hw : ws.length = recv.length := by rw [e1, hws']; cases tr <;> simp
  exact ⟨Y, hY, fun i hi e he c => Att.equal_default hl hw hz h1 h2 i hi e he c⟩

/-- C139 (Hypergraph). Without explicit scores all scores are equal: every hyperedge gets the plain average of
its vertices, every vertex of its hyperedges. -/
theorem C139_hypergraph_default {b : Bool} {s : HSt K} {sc : Option String} {h : Half} {send recv : List Nat} {m n : Nat}
    (hs : Hyper.Built Hyper.Proper b s) (hsc : Spec.HasScope s sc) (he : HEnds h s sc send recv)
    (hm : Senders h s sc m) (hn : Receivers h s sc n) (X : Dense K) (hX : X.rows = m) (keep : Nat → Bool) :
    ∃ Y, (Hyper.ask (aggQ h sc X .softmax none 0 keep) s).1 = .ok (.feat Y) ∧
      ∀ i ∈ recv, ∀ c, Spec.PlainAverage send recv (fun j => X.at_ j c) i (Y.at_ i c) := by
  obtain ⟨hi, hc⟩ := (hs.mono (Q := Hyper.AnyH) fun _ _ _ => trivial).inv
  obtain ⟨M, hM, hT, hI⟩ := Hyper.evHT_spec hi hs.inRange (Hy.has_of_scope hsc)
  have he' := he
  cases h with
  | v2e =>
    have hw : (Hyper.ask (.v2eWeight sc) s).1 = .ok (.vec (M.t.ents.map Prod.snd)) := by
      rw [Hyper.ask_eq _ hc (.inr (by simp))]; simp only [Hyper.evAsk, hT, bind, Except.bind]
    have hr := he.2
    rw [Hyper.ask_eq _ hc (.inr (by simp))] at hr
    simp only [Hyper.evAsk, hT, bind, Except.bind] at hr
    have hr' : recv = M.t.ents.map (fun e => e.1.1) := by
      injection hr with h; injection h with h; exact h.symm
    obtain ⟨Y, hY, h1⟩ := C139_hypergraph_equal hs hsc he' hm hn X hX keep (M.t.ents.map Prod.snd) (by rw [hr']; simp)
    refine ⟨Y, by rw [← hY]; exact (C14_hypergraph_softmax_default hs hsc X 0 keep).1 hw, fun i hi c => h1 i hi 1 ?_ c⟩
    intro k q1 q2 _
    rw [List.getElem_map]
    simp only [Sp.t, List.getElem_map]
    exact hI.ones _ (List.getElem_mem _)
  | e2v =>
    have hw : (Hyper.ask (.e2vWeight sc) s).1 = .ok (.vec (M.ents.map Prod.snd)) := by
      rw [Hyper.ask_eq _ hc (.inr (by simp))]; simp only [Hyper.evAsk, hM, bind, Except.bind]
    have hr := he.2
    rw [Hyper.ask_eq _ hc (.inr (by simp))] at hr
    simp only [Hyper.evAsk, hM, bind, Except.bind] at hr
    have hr' : recv = M.ents.map (fun e => e.1.1) := by
      injection hr with h; injection h with h; exact h.symm
    obtain ⟨Y, hY, h1⟩ := C139_hypergraph_equal hs hsc he' hm hn X hX keep (M.ents.map Prod.snd) (by rw [hr']; simp)
    refine ⟨Y, by rw [← hY]; exact (C14_hypergraph_softmax_default hs hsc X 0 keep).2 hw, fun i hi c => h1 i hi 1 ?_ c⟩
    intro k q1 q2 _
    rw [List.getElem_map]
    exact hI.ones _ (List.getElem_mem _)

/-! ### Cases that meet the hypotheses -/

/-- a path of three vertices: vertex 1 receives two messages -/
noncomputable def exPath3 : GSt ℝ :=
  { raw := { numV := 3, eDict := [((0, 1), 1), ((1, 2), 1)], loops := [], extra := false }, cache := [] }

theorem exPath3_nonneg : Graph.Built NonNeg exPath3 :=
  .new (n := 3) (arg := some (.many [(0, 1), (1, 2)] .none)) (extra := false) (op := .mean) rfl
    (by intro a ha; cases ha; simp [NonNeg])

theorem exPath3_vecs : EdgeVecs exPath3 [1, 0, 2, 1] [0, 1, 1, 2] := by
  constructor
  · rw [ask_eq exPath3_nonneg]; rfl
  · rw [ask_eq exPath3_nonneg]; rfl

example : Graph.Built NonNeg exPath3 ∧ (Graph.ask .numV exPath3).1 = .ok (.num 3) ∧
    EdgeVecs exPath3 [1, 0, 2, 1] [0, 1, 1, 2] ∧ [(5 : ℝ), 6, 7, 8].length = [0, 1, 1, 2].length ∧
    [1, 0, 2, 1][2]? = some 2 ∧ [0, 1, 1, 2][2]? = some 1 ∧ [(5 : ℝ), 6, 7, 8][2]? = some 7 ∧ (7 : ℝ) < 9 ∧
    Spec.shifted [0, 1, 1, 2] (fun i => if i = 1 then 3 else 4) [(5 : ℝ), 6, 7, 8] = [5 + 4, 6 + 3, 7 + 3, 8 + 4] ∧
    (∀ k (_ : k < [(5 : ℝ), 6, 6, 8].length) (_ : k < [0, 1, 1, 2].length),
      [0, 1, 1, 2][k] = 1 → [(5 : ℝ), 6, 6, 8][k] = 6) := by
  refine ⟨exPath3_nonneg, rfl, exPath3_vecs, rfl, rfl, rfl, rfl, by norm_num, by simp [Spec.shifted], ?_⟩
  intro k h1 h2 h3
  rcases k with _ | _ | _ | _ | k
  · simp at h3
  · simp
  · simp
  · simp at h3
  · exact absurd h1 (by simp)

example : BiGraph.Built NonNeg exB1 ∧ Bi.Ends exB1 true [0] [0] ∧ [(5 : ℝ)].length = [0].length :=
  ⟨exB1_nonneg, exB1_ends true, rfl⟩

example : DiGraph.Built NonNeg false exD1 ∧ Di.Ends exD1 .dst2src [1] [0] ∧ [(5 : ℝ)].length = [0].length :=
  ⟨exD1_nonneg, exD1_ends, rfl⟩

example : Hyper.Built Hyper.Proper true exH1 ∧ Spec.HasScope exH1 none ∧ HEnds .v2e exH1 none [1] [0] ∧
    Senders .v2e exH1 none 2 ∧ Receivers .v2e exH1 none 1 ∧ [(5 : ℝ)].length = [0].length :=
  ⟨exH1_proper, List.cons_ne_nil _ _, exH1_ends, rfl, rfl, rfl⟩

end Props
end DHG
