import Mathlib.Tactic.Linarith
import Verif.Recon.Spec
import Verif.Queue.Props

/-!
# Theorems about the greyscale reconstruction: C12
-/

namespace Verif.Recon

open Spec
open Verif.Queue (Q Rep)

/-! ## Pixels -/

/-- Not on the border. -/
def Interior (nx ny : Nat) (p : Px) : Prop :=
  1 ≤ p.1 ∧ p.1 + 1 < ny ∧ 1 ≤ p.2 ∧ p.2 + 1 < nx

theorem mem_interior {nx ny : Nat} {p : Px} : p ∈ interior nx ny ↔ Interior nx ny p := by
  obtain ⟨i, j⟩ := p
  simp only [interior, List.mem_flatMap, List.mem_range, List.mem_map, Prod.mk.injEq, Interior]
  constructor
  · rintro ⟨a, ha, b, hb, rfl, rfl⟩
    omega
  · rintro ⟨h1, h2, h3, h4⟩
    exact ⟨(i - 1).toNat, by omega, (j - 1).toNat, by omega, by omega, by omega⟩

theorem mem_pixels {nx ny : Nat} {p : Px} : p ∈ pixels nx ny ↔ Inside nx ny p := by
  obtain ⟨i, j⟩ := p
  simp only [pixels, List.mem_flatMap, List.mem_range, List.mem_map, Prod.mk.injEq, Inside]
  constructor
  · rintro ⟨a, ha, b, hb, rfl, rfl⟩
    omega
  · rintro ⟨h1, h2, h3, h4⟩
    exact ⟨i.toNat, by omega, j.toNat, by omega, by omega, by omega⟩

theorem inside_iff {nx ny : Nat} {p : Px} : inside nx ny p = true ↔ Inside nx ny p := by
  simp [inside, Inside]

theorem load_ok {nx ny : Nat} {A : Img} {p : Px} (h : Inside nx ny p) : load nx ny A p = .ok (A p) := by
  simp [load, inside_iff.2 h]

theorem Interior.inside {nx ny : Nat} {p : Px} (h : Interior nx ny p) : Inside nx ny p := by
  obtain ⟨h1, h2, h3, h4⟩ := h
  exact ⟨by omega, by omega, by omega, by omega⟩

theorem border_or_interior {nx ny : Nat} {p : Px} (h : Inside nx ny p) :
    Border nx ny p ∨ Interior nx ny p := by
  by_cases hb : p.1 = 0 ∨ p.2 = 0 ∨ p.1 = (ny : Int) - 1 ∨ p.2 = (nx : Int) - 1
  · exact Or.inl ⟨h, hb⟩
  · obtain ⟨h1, h2, h3, h4⟩ := h
    push Not at hb
    exact Or.inr ⟨by omega, by omega, by omega, by omega⟩

theorem not_interior_of_border {nx ny : Nat} {p : Px} (h : Border nx ny p) : ¬ Interior nx ny p := by
  rintro ⟨h1, h2, h3, h4⟩
  obtain ⟨_, hb⟩ := h
  omega

theorem mem_np8 {o : Px} : o ∈ np8 ↔ o ≠ (0, 0) ∧ -1 ≤ o.1 ∧ o.1 ≤ 1 ∧ -1 ≤ o.2 ∧ o.2 ≤ 1 := by
  obtain ⟨a, b⟩ := o
  simp only [np8, List.mem_cons, Prod.mk.injEq, List.not_mem_nil, or_false, ne_eq]
  omega

theorem mem_np1 {o : Px} : o ∈ np1 ↔ (o.1 = -1 ∧ -1 ≤ o.2 ∧ o.2 ≤ 1) ∨ (o.1 = 0 ∧ o.2 = -1) := by
  obtain ⟨a, b⟩ := o
  simp only [np1, List.mem_cons, Prod.mk.injEq, List.not_mem_nil, or_false]
  omega

theorem mem_np2 {o : Px} : o ∈ np2 ↔ (o.1 = 1 ∧ -1 ≤ o.2 ∧ o.2 ≤ 1) ∨ (o.1 = 0 ∧ o.2 = 1) := by
  obtain ⟨a, b⟩ := o
  simp only [np2, List.mem_cons, Prod.mk.injEq, List.not_mem_nil, or_false]
  omega

theorem np1_sub : np1 ⊆ np8 := by decide
theorem np2_sub : np2 ⊆ np8 := by decide

theorem nb_inside {nx ny : Nat} {p o : Px} (hp : Interior nx ny p) (ho : o ∈ np8) :
    Inside nx ny (nb p o) := by
  obtain ⟨h1, h2, h3, h4⟩ := hp
  obtain ⟨_, g1, g2, g3, g4⟩ := mem_np8.1 ho
  simp only [Inside, nb]
  omega

theorem nb_ne {p o : Px} (ho : o ∈ np8) : nb p o ≠ p := by
  intro h
  obtain ⟨g0, _⟩ := mem_np8.1 ho
  apply g0
  have h1 := congrArg Prod.fst h
  have h2 := congrArg Prod.snd h
  simp only [nb] at h1 h2
  exact Prod.ext (by simp; omega) (by simp; omega)

theorem nb_adj {p o : Px} (ho : o ∈ np8) : Adj p (nb p o) := by
  refine ⟨(nb_ne ho).symm, ?_, ?_⟩ <;>
  · obtain ⟨_, g1, g2, g3, g4⟩ := mem_np8.1 ho
    simp only [nb]
    omega

theorem adj_symm {p q : Px} (h : Adj p q) : Adj q p := by
  obtain ⟨h1, h2, h3⟩ := h
  exact ⟨h1.symm, by omega, by omega⟩

theorem adj_nb {p q : Px} (h : Adj p q) : ∃ o ∈ np8, q = nb p o := by
  obtain ⟨h1, h2, h3⟩ := h
  refine ⟨(q.1 - p.1, q.2 - p.2), mem_np8.2 ⟨?_, by simp only; omega, by simp only; omega, by simp only; omega,
    by simp only; omega⟩, ?_⟩
  · intro h
    apply h1
    have e1 := congrArg Prod.fst h
    have e2 := congrArg Prod.snd h
    simp only at e1 e2
    exact Prod.ext (by omega) (by omega)
  · exact Prod.ext (by simp only [nb]; omega) (by simp only [nb]; omega)

/-! ## The invariant of all phases -/

/-- Border values are those of the mask, no value is below the mask, and every pixel can be reached at its
current level. -/
structure Inv (nx ny : Nat) (mask M : Img) : Prop where
  border : ∀ p, Border nx ny p → M p = mask p
  ge : ∀ p, Inside nx ny p → mask p ≤ M p
  reach : ∀ p, Inside nx ny p → Reach nx ny mask (M p) p

theorem Spec.Reach.mono {nx ny : Nat} {mask : Img} {l l' : Int} {p : Px} (h : Reach nx ny mask l p)
    (hl : l ≤ l') : Reach nx ny mask l' p := by
  induction h with
  | border p hb hm => exact .border p hb (by omega)
  | step p q _ ha hi hm ih => exact .step p q ih ha hi (by omega)

theorem foldl_max (mask : Img) (ps : List Px) (m : Int) :
    m ≤ ps.foldl (fun m p => if mask p > m then mask p else m) m ∧
    ∀ p ∈ ps, mask p ≤ ps.foldl (fun m p => if mask p > m then mask p else m) m := by
  induction ps generalizing m with
  | nil => simp
  | cons p ps ih =>
    simp only [List.foldl_cons, List.mem_cons]
    obtain ⟨h1, h2⟩ := ih (if mask p > m then mask p else m)
    have a1 : m ≤ (if mask p > m then mask p else m) := by split <;> omega
    have a2 : mask p ≤ (if mask p > m then mask p else m) := by split <;> omega
    refine ⟨a1.trans h1, ?_⟩
    · rintro q (rfl | hq)
      · exact a2.trans h1
      · exact h2 q hq

theorem maxMask_ge {nx ny : Nat} {mask : Img} {p : Px} (h : Inside nx ny p) :
    mask p ≤ maxMask nx ny mask := (foldl_max mask (pixels nx ny) (-32768)).2 p (mem_pixels.2 h)

theorem reach_max {nx ny : Nat} {mask : Img} (j : Int) (n : Nat) (h : Inside nx ny ((n : Int), j)) :
    Reach nx ny mask (maxMask nx ny mask) ((n : Int), j) := by
  induction n with
  | zero => exact .border _ ⟨h, Or.inl rfl⟩ (maxMask_ge h)
  | succ n ih =>
    have h' : Inside nx ny ((n : Int), j) := by
      obtain ⟨h1, h2, h3, h4⟩ := h
      simp only [Nat.cast_add, Nat.cast_one] at h1 h2
      exact ⟨by simp only; omega, by simp only; omega, h3, h4⟩
    refine .step _ _ (ih h') ⟨?_, ?_, ?_⟩ h (maxMask_ge h)
    · intro he
      have := congrArg Prod.fst he
      simp only [Nat.cast_add, Nat.cast_one] at this
      omega
    · simp only [Nat.cast_add, Nat.cast_one]; omega
    · simp

theorem init_inv (nx ny : Nat) (mask marker : Img) : Inv nx ny mask (init nx ny mask marker) := by
  have hb : ∀ p, Border nx ny p → init nx ny mask marker p = mask p := by
    intro p hp
    simp only [init, inside_iff.2 hp.1, if_true, if_pos hp.2]
  have hi : ∀ p, Interior nx ny p → init nx ny mask marker p = maxMask nx ny mask := by
    intro p hp
    simp only [init, inside_iff.2 hp.inside, if_true]
    rw [if_neg]
    obtain ⟨h1, h2, h3, h4⟩ := hp
    omega
  refine ⟨hb, ?_, ?_⟩
  · intro p hp
    rcases border_or_interior hp with h | h
    · rw [hb p h]
    · rw [hi p h]; exact maxMask_ge hp
  · intro p hp
    rcases border_or_interior hp with h | h
    · rw [hb p h]; exact .border p h le_rfl
    · rw [hi p h]
      have e : p = (((p.1.toNat : Nat) : Int), p.2) := by
        obtain ⟨h1, _⟩ := hp
        exact Prod.ext (by simp only; omega) rfl
      rw [e]
      exact reach_max p.2 p.1.toNat (by rw [← e]; exact hp)

theorem minLoop_spec {nx ny : Nat} {M : Img} {p : Px} (offs : List Px) (m : Int)
    (h : ∀ o ∈ offs, Inside nx ny (nb p o)) :
    ∃ m', minLoop nx ny M p offs m = .ok m' ∧ m' ≤ m ∧ (∀ o ∈ offs, m' ≤ M (nb p o)) ∧
      (m' = m ∨ ∃ o ∈ offs, m' = M (nb p o)) := by
  induction offs generalizing m with
  | nil => exact ⟨m, rfl, le_rfl, by simp, Or.inl rfl⟩
  | cons o os ih =>
    obtain ⟨m', h1, h2, h3, h4⟩ := ih (if M (nb p o) < m then M (nb p o) else m)
      (fun o ho => h o (by simp [ho]))
    refine ⟨m', ?_, ?_, ?_, ?_⟩
    · simp only [minLoop, load_ok (h o (by simp)), Ret.bind, h1]
    · split at h2 <;> omega
    · intro o' ho'
      rcases List.mem_cons.1 ho' with rfl | ho'
      · split at h2 <;> omega
      · exact h3 o' ho'
    · rcases h4 with h4 | ⟨o', ho', h4⟩
      · split at h4
        · exact Or.inr ⟨o, by simp, h4⟩
        · exact Or.inl h4
      · exact Or.inr ⟨o', by simp [ho'], h4⟩

theorem set_same (M : Img) (p : Px) (v : Int) : set M p v p = v := by simp [set]
theorem set_ne (M : Img) {p q : Px} (v : Int) (h : q ≠ p) : set M p v q = M q := by simp [set, h]

/-- Lowering an interior pixel to a reachable level keeps the invariant. -/
theorem Inv.set {nx ny : Nat} {mask M : Img} (hi : Inv nx ny mask M) {p : Px} (hp : Interior nx ny p)
    {v : Int} (hv : mask p ≤ v) (hr : Reach nx ny mask v p) : Inv nx ny mask (set M p v) := by
  refine ⟨?_, ?_, ?_⟩
  · intro q hq
    have : q ≠ p := fun h => not_interior_of_border hq (h ▸ hp)
    rw [set_ne _ _ this]; exact hi.border q hq
  · intro q hq
    by_cases h : q = p
    · subst h; rw [set_same]; exact hv
    · rw [set_ne _ _ h]; exact hi.ge q hq
  · intro q hq
    by_cases h : q = p
    · subst h; rw [set_same]; exact hr
    · rw [set_ne _ _ h]; exact hi.reach q hq

theorem lower_spec {nx ny : Nat} {mask M : Img} (hi : Inv nx ny mask M) {offs : List Px}
    (ho : offs ⊆ np8) {p : Px} (hp : Interior nx ny p) :
    ∃ v, lower nx ny mask M offs p = .ok (set M p v) ∧ Inv nx ny mask (set M p v) ∧ v ≤ M p ∧
      ∀ o ∈ offs, v ≤ max (M (nb p o)) (mask p) := by
  obtain ⟨m, h1, h2, h3, h4⟩ := minLoop_spec (M := M) offs (M p) (fun o h => nb_inside hp (ho h))
  have hge := hi.ge p hp.inside
  refine ⟨if m > mask p then m else mask p, ?_, ?_, ?_, ?_⟩
  · simp only [lower, load_ok hp.inside, Ret.bind, h1]
  · have hmv : m ≤ (if m > mask p then m else mask p) := by split <;> omega
    have hkv : mask p ≤ (if m > mask p then m else mask p) := by split <;> omega
    refine hi.set hp hkv ?_
    rcases h4 with h4 | ⟨o, hoo, h4⟩
    · exact (hi.reach p hp.inside).mono (by omega)
    · refine .step (nb p o) p ((hi.reach _ (nb_inside hp (ho hoo))).mono (by omega))
        (adj_symm (nb_adj (ho hoo))) hp.inside hkv
  · split <;> omega
  · intro o hoo
    have := h3 o hoo
    split <;> omega

theorem raster_spec {nx ny : Nat} {mask : Img} (ps : List Px) (hps : ∀ p ∈ ps, Interior nx ny p) (M : Img)
    (hi : Inv nx ny mask M) :
    ∃ M', raster nx ny mask ps M = .ok M' ∧ Inv nx ny mask M' ∧ (∀ q, M' q ≤ M q) ∧
      ∀ q ∈ ps, ∀ o ∈ np1, Border nx ny (nb q o) → M' q ≤ max (mask (nb q o)) (mask q) := by
  induction ps generalizing M with
  | nil => exact ⟨M, rfl, hi, fun _ => le_rfl, by simp⟩
  | cons p ps ih =>
    obtain ⟨v, h1, h2, h3, h4⟩ := lower_spec hi np1_sub (hps p (by simp))
    obtain ⟨M', g1, g2, g3, g4⟩ := ih (fun q hq => hps q (by simp [hq])) _ h2
    refine ⟨M', by simp only [raster, h1, Ret.bind, g1], g2, ?_, ?_⟩
    · intro q
      have := g3 q
      by_cases h : q = p
      · subst h; rw [set_same] at this; omega
      · rw [set_ne _ _ h] at this; exact this
    · intro q hq o ho hb
      rcases List.mem_cons.1 hq with rfl | hq
      · have a := g3 q
        rw [set_same] at a
        have b := h4 o ho
        rw [hi.border _ hb] at b
        omega
      · exact g4 q hq o ho hb

/-! ## The queue -/

/-- The queue holds the pixels `l`, all of them interior. -/
structure QRep (nx ny : Nat) (q : Q) (l : List Px) : Prop where
  rep : Rep q (l.map fun p => (p.2, p.1))
  int : ∀ p ∈ l, Interior nx ny p

theorem enq_spec {nx ny : Nat} (hx : nx ≤ 32768) (hy : ny ≤ 32768) {q : Q} {l : List Px}
    (hq : QRep nx ny q l) {p : Px} (hp : Interior nx ny p) :
    enq q p = .failure ∨ ∃ q', enq q p = .ok q' ∧ QRep nx ny q' (l ++ [p]) := by
  obtain ⟨h1, h2, h3, h4⟩ := hp
  have hs := Queue.rep_step q _ (.enq p.2 p.1) hq.rep ⟨⟨by omega, by omega⟩, by omega, by omega⟩
  simp only [Queue.step, Queue.Spec.step] at hs
  unfold enq
  obtain ⟨s1, s2, _⟩ := hs
  split at s1
  · next hc =>
    left
    rcases he : Queue.enqueue q p.2 p.1 with ⟨r, q'⟩
    rw [he] at s1
    simp only at s1
    simp [s1]
  · next hc =>
    right
    rw [if_neg hc] at s2
    rcases he : Queue.enqueue q p.2 p.1 with ⟨r, q'⟩
    rw [he] at s1 s2
    simp only at s1 s2
    refine ⟨q', by simp [s1], ⟨by simpa using s2, ?_⟩⟩
    intro p' hp'
    rcases List.mem_append.1 hp' with h | h
    · exact hq.int p' h
    · rw [List.mem_singleton.1 h]
      exact ⟨h1, h2, h3, h4⟩

theorem deq_spec {nx ny : Nat} {q : Q} {l : List Px} (hq : QRep nx ny q l) :
    (l = [] ∧ (Queue.dequeue q).1 = .failure) ∨
    ∃ p l' q', l = p :: l' ∧ Queue.dequeue q = (.success p.2 p.1, q') ∧ QRep nx ny q' l' := by
  have hs := Queue.rep_step q _ .deq hq.rep trivial
  simp only [Queue.step] at hs
  obtain ⟨s1, s2, _⟩ := hs
  cases l with
  | nil => left; exact ⟨rfl, by simpa [Queue.Spec.step] using s1⟩
  | cons p l =>
    right
    simp only [List.map_cons, Queue.Spec.step] at s1 s2
    exact ⟨p, l, (Queue.dequeue q).2, rfl, Prod.ext s1 rfl, ⟨s2, fun p' hp' => hq.int p' (by simp [hp'])⟩⟩

theorem enqLoop_spec {nx ny : Nat} (hx : nx ≤ 32768) (hy : ny ≤ 32768) {mask M : Img} {p : Px}
    (hp : Interior nx ny p) (offs : List Px) (ho : offs ⊆ np8) {q : Q} {l : List Px} (hq : QRep nx ny q l) :
    enqLoop nx ny mask M p offs q = .failure ∨
    ∃ q' l', enqLoop nx ny mask M p offs q = .ok q' ∧ QRep nx ny q' l' ∧ l ⊆ l' ∧
      ∀ o ∈ offs, M (nb p o) > M p → M (nb p o) > mask (nb p o) → p ∈ l' := by
  induction offs generalizing q l with
  | nil => exact Or.inr ⟨q, l, rfl, hq, fun _ h => h, by simp⟩
  | cons o os ih =>
    have ho' : os ⊆ np8 := fun x hx => ho (by simp [hx])
    have hin := nb_inside hp (ho (List.mem_cons_self ..))
    by_cases hc : M (nb p o) > M p ∧ M (nb p o) > mask (nb p o)
    · have e : enqLoop nx ny mask M p (o :: os) q = (enq q p).bind fun q => enqLoop nx ny mask M p os q := by
        simp only [enqLoop, load_ok hin, load_ok hp.inside, Ret.bind, if_pos hc]
      rw [e]
      rcases enq_spec hx hy hq hp with h | ⟨q1, h, hq1⟩
      · left; rw [h]; rfl
      · rw [h]
        rcases ih ho' hq1 with h' | ⟨q', l', g1, g2, g3, g4⟩
        · left; exact h'
        · right
          refine ⟨q', l', g1, g2, fun x hx => g3 (by simp [hx]), ?_⟩
          intro _ _ _ _
          exact g3 (by simp)
    · have e : enqLoop nx ny mask M p (o :: os) q = enqLoop nx ny mask M p os q := by
        simp only [enqLoop, load_ok hin, load_ok hp.inside, Ret.bind, if_neg hc]
      rw [e]
      rcases ih ho' hq with h' | ⟨q', l', g1, g2, g3, g4⟩
      · left; exact h'
      · right
        refine ⟨q', l', g1, g2, g3, ?_⟩
        intro o' ho' c1 c2
        rcases List.mem_cons.1 ho' with rfl | ho'
        · exact absurd ⟨c1, c2⟩ hc
        · exact g4 o' ho' c1 c2

/-! ## The anti-raster scan -/

/-- Raster order. -/
def Lt (a b : Px) : Prop := a.1 < b.1 ∨ (a.1 = b.1 ∧ a.2 < b.2)

theorem interior_sorted (nx ny : Nat) : (interior nx ny).Pairwise Lt := by
  unfold interior
  rw [List.pairwise_flatMap]
  constructor
  · intro a _
    rw [List.pairwise_map]
    exact List.pairwise_lt_range.imp (fun h => Or.inr ⟨rfl, by simp only; omega⟩)
  · refine List.pairwise_lt_range.imp ?_
    intro a b h x hx y hy
    obtain ⟨_, _, rfl⟩ := List.mem_map.1 hx
    obtain ⟨_, _, rfl⟩ := List.mem_map.1 hy
    exact Or.inl (by simp only; omega)

theorem np2_lt {p o : Px} (ho : o ∈ np2) : Lt p (nb p o) := by
  have := mem_np2.1 ho
  simp only [Lt, nb]
  omega

theorem lt_irrefl' {p : Px} : ¬ Lt p p := by simp [Lt]

theorem anti_spec {nx ny : Nat} (hx : nx ≤ 32768) (hy : ny ≤ 32768) {mask : Img} (rest : List Px) :
    ∀ (done : List Px) (M : Img) (q : Q) (l : List Px), (∀ p ∈ rest, Interior nx ny p) →
      (done ++ rest).Pairwise (fun a b => Lt b a) → Inv nx ny mask M → QRep nx ny q l →
      (∀ r ∈ done, ∀ o ∈ np2, M r ≤ max (M (nb r o)) (mask r)) →
      (∀ r ∈ done, ∀ o ∈ np2, M (nb r o) ≤ max (M r) (mask (nb r o)) ∨ r ∈ l) →
      anti nx ny mask rest (M, q) = .failure ∨
      ∃ M' q' l', anti nx ny mask rest (M, q) = .ok (M', q') ∧ Inv nx ny mask M' ∧ QRep nx ny q' l' ∧
        (∀ r, M' r ≤ M r) ∧
        (∀ r ∈ done ++ rest, ∀ o ∈ np2, M' r ≤ max (M' (nb r o)) (mask r)) ∧
        (∀ r ∈ done ++ rest, ∀ o ∈ np2, M' (nb r o) ≤ max (M' r) (mask (nb r o)) ∨ r ∈ l') := by
  induction rest with
  | nil =>
    intro done M q l _ _ hi hq hA hB
    right
    exact ⟨M, q, l, rfl, hi, hq, fun _ => le_rfl, by simpa using hA, by simpa using hB⟩
  | cons p rest ih =>
    intro done M q l hint hsort hi hq hA hB
    have hp := hint p (by simp)
    obtain ⟨v, h1, h2, h3, h4⟩ := lower_spec hi np2_sub hp
    have hdone : ∀ r ∈ done, Lt p r := by
      intro r hr
      exact (List.pairwise_append.1 hsort).2.2 r hr p (by simp)
    have e : anti nx ny mask (p :: rest) (M, q) =
        (enqLoop nx ny mask (set M p v) p np2 q).bind fun q => anti nx ny mask rest (set M p v, q) := by
      simp only [anti, h1, Ret.bind]
    rw [e]
    rcases enqLoop_spec hx hy (mask := mask) (M := set M p v) hp np2 np2_sub hq with h | ⟨q1, l1, g1, g2, g3, g4⟩
    · left; rw [h]; rfl
    · rw [g1]
      have hne : ∀ r ∈ done, r ≠ p := fun r hr he => lt_irrefl' (he ▸ hdone r hr)
      have hne2 : ∀ r ∈ done, ∀ o ∈ np2, nb r o ≠ p := by
        intro r hr o ho he
        have a := hdone r hr
        have b := np2_lt (p := r) ho
        rw [he] at b
        simp only [Lt] at a b
        omega
      rcases ih (done ++ [p]) (set M p v) q1 l1 (fun r hr => hint r (by simp [hr])) (by simpa using hsort) h2 g2
        (by
          intro r hr o ho
          rcases List.mem_append.1 hr with hr | hr
          · rw [set_ne _ _ (hne r hr), set_ne _ _ (hne2 r hr o ho)]
            exact hA r hr o ho
          · rw [List.mem_singleton.1 hr, set_same, set_ne _ _ (nb_ne (np2_sub ho))]
            exact h4 o ho)
        (by
          intro r hr o ho
          rcases List.mem_append.1 hr with hr | hr
          · rw [set_ne _ _ (hne r hr), set_ne _ _ (hne2 r hr o ho)]
            exact (hB r hr o ho).imp id (fun h => g3 h)
          · rw [List.mem_singleton.1 hr]
            by_cases hc : set M p v (nb p o) > set M p v p ∧ set M p v (nb p o) > mask (nb p o)
            · right; exact g4 o ho hc.1 hc.2
            · left; omega) with h | ⟨M', q', l', k1, k2, k3, k4, k5, k6⟩
      · left; exact h
      · right
        refine ⟨M', q', l', k1, k2, k3, ?_, by simpa using k5, by simpa using k6⟩
        intro r
        have := k4 r
        by_cases h : r = p
        · subst h; rw [set_same] at this; omega
        · rw [set_ne _ _ h] at this; exact this

/-! ## Propagation -/

/-- Every pixel that could be lowered by a neighbour has that neighbour in the queue. -/
def Closed (nx ny : Nat) (mask M : Img) (l : List Px) : Prop :=
  ∀ q, Interior nx ny q → ∀ p, Inside nx ny p → Adj p q → M q ≤ max (M p) (mask q) ∨ p ∈ l

/-- What remains to be lowered. -/
def potential (nx ny : Nat) (mask M : Img) : Nat := ((interior nx ny).map fun p => (M p - mask p).toNat).sum

theorem sum_map_lt (ps : List Px) (f g : Px → Nat) (h : ∀ p, f p ≤ g p) (x : Px) (hx : x ∈ ps)
    (hlt : f x < g x) : (ps.map f).sum < (ps.map g).sum := by
  have hle : ∀ ps : List Px, (ps.map f).sum ≤ (ps.map g).sum := by
    intro ps
    induction ps with
    | nil => simp
    | cons p ps ih => simp only [List.map_cons, List.sum_cons]; have := h p; omega
  induction ps with
  | nil => cases hx
  | cons p ps ih =>
    simp only [List.map_cons, List.sum_cons]
    rcases List.mem_cons.1 hx with rfl | hx
    · have := hle ps; omega
    · have := ih hx; have := h p; omega

theorem visit_spec {nx ny : Nat} (hx : nx ≤ 32768) (hy : ny ≤ 32768) {mask : Img} {p : Px}
    (hp : Interior nx ny p) (offs : List Px) (ho : offs ⊆ np8) :
    ∀ (M : Img) (q : Q) (l : List Px), Inv nx ny mask M → QRep nx ny q l →
      (∀ b, Interior nx ny b → ∀ a, Inside nx ny a → Adj a b → M b ≤ max (M a) (mask b) ∨ a ∈ l ∨
        (a = p ∧ ∃ o ∈ offs, b = nb p o)) →
      visit nx ny mask p offs (M, q) = .failure ∨
      ∃ M' q' l', visit nx ny mask p offs (M, q) = .ok (M', q') ∧ Inv nx ny mask M' ∧ QRep nx ny q' l' ∧
        Closed nx ny mask M' l' ∧
        2 * potential nx ny mask M' + l'.length ≤ 2 * potential nx ny mask M + l.length := by
  induction offs with
  | nil =>
    intro M q l hi hq hc
    right
    refine ⟨M, q, l, rfl, hi, hq, ?_, le_rfl⟩
    intro b hb a ha hab
    rcases hc b hb a ha hab with h | h | ⟨_, o, ho, _⟩
    · exact Or.inl h
    · exact Or.inr h
    · cases ho
  | cons o os ih =>
    intro M q l hi hq hc
    have ho8 : o ∈ np8 := ho (List.mem_cons_self ..)
    have hin := nb_inside hp ho8
    have hge := hi.ge _ hin
    by_cases hcond : M (nb p o) > M p ∧ mask (nb p o) ≠ M (nb p o)
    · have e : visit nx ny mask p (o :: os) (M, q) = (enq q (nb p o)).bind fun q =>
          visit nx ny mask p os
            (set M (nb p o) (if M p > mask (nb p o) then M p else mask (nb p o)), q) := by
        simp only [visit, load_ok hin, load_ok hp.inside, Ret.bind, if_pos hcond]
      rw [e]
      obtain ⟨w, hw⟩ : ∃ w, w = if M p > mask (nb p o) then M p else mask (nb p o) := ⟨_, rfl⟩
      rw [← hw]
      have hw1 : mask (nb p o) ≤ w := by rw [hw]; split <;> omega
      have hw2 : M p ≤ w := by rw [hw]; split <;> omega
      have hw3 : w ≤ max (M p) (mask (nb p o)) := by rw [hw]; split <;> omega
      have hw4 : w < M (nb p o) := by rw [hw]; split <;> omega
      have hint : Interior nx ny (nb p o) := by
        rcases border_or_interior hin with h | h
        · exact absurd (hi.border _ h).symm hcond.2
        · exact h
      have hi' : Inv nx ny mask (set M (nb p o) w) :=
        hi.set hint hw1 (.step p _ ((hi.reach p hp.inside).mono hw2) (nb_adj ho8) hin hw1)
      rcases enq_spec hx hy hq hint with h | ⟨q1, h, hq1⟩
      · left; rw [h]; rfl
      · rw [h]
        have hpne : p ≠ nb p o := (nb_ne ho8).symm
        rcases ih (fun x hx => ho (by simp [hx])) (set M (nb p o) w) q1 (l ++ [nb p o]) hi' hq1 (by
          intro b hb a ha hab
          by_cases hanp : a = nb p o
          · right; left; rw [hanp]; simp
          · rw [set_ne _ _ hanp]
            by_cases hbnp : b = nb p o
            · rw [hbnp, set_same]
              by_cases hap : a = p
              · left; rw [hap]; exact hw3
              · rcases hc b hb a ha hab with h | h | ⟨h, _⟩
                · left
                  rw [hbnp] at h
                  omega
                · right; left; simp [h]
                · exact absurd h hap
            · rw [set_ne _ _ hbnp]
              rcases hc b hb a ha hab with h | h | ⟨h1, o', ho', h2⟩
              · exact Or.inl h
              · right; left; simp [h]
              · right; right
                refine ⟨h1, o', ?_, h2⟩
                rcases List.mem_cons.1 ho' with rfl | ho'
                · exact absurd h2 hbnp
                · exact ho') with h' | ⟨M', q', l', k1, k2, k3, k4, k5⟩
        · left; exact h'
        · right
          refine ⟨M', q', l', k1, k2, k3, k4, ?_⟩
          have hpot : potential nx ny mask (set M (nb p o) w) < potential nx ny mask M := by
            refine sum_map_lt _ _ _ ?_ (nb p o) (mem_interior.2 hint) ?_
            · intro x
              by_cases hxx : x = nb p o
              · subst hxx; rw [set_same]; omega
              · rw [set_ne _ _ hxx]
            · rw [set_same]; omega
          simp only [List.length_append, List.length_singleton] at k5
          omega
    · have e : visit nx ny mask p (o :: os) (M, q) = visit nx ny mask p os (M, q) := by
        simp only [visit, load_ok hin, load_ok hp.inside, Ret.bind, if_neg hcond]
      rw [e]
      refine ih (fun x hx => ho (by simp [hx])) M q l hi hq ?_
      intro b hb a ha hab
      rcases hc b hb a ha hab with h | h | ⟨h1, o', ho', h2⟩
      · exact Or.inl h
      · exact Or.inr (Or.inl h)
      · rcases List.mem_cons.1 ho' with rfl | ho'
        · left
          rw [h1, h2]
          omega
        · exact Or.inr (Or.inr ⟨h1, o', ho', h2⟩)

theorem propagate_spec {nx ny : Nat} (hx : nx ≤ 32768) (hy : ny ≤ 32768) {mask : Img} (fuel : Nat) :
    ∀ (M : Img) (q : Q) (l : List Px), Inv nx ny mask M → QRep nx ny q l → Closed nx ny mask M l →
      (propagate nx ny mask fuel (M, q) = none ∧ fuel ≤ 2 * potential nx ny mask M + l.length) ∨
      propagate nx ny mask fuel (M, q) = some .failure ∨
      ∃ M', propagate nx ny mask fuel (M, q) = some (.ok M') ∧ Inv nx ny mask M' ∧ Closed nx ny mask M' [] := by
  induction fuel with
  | zero => intro M q l _ _ _; left; exact ⟨rfl, Nat.zero_le _⟩
  | succ fuel ih =>
    intro M q l hi hq hc
    rcases deq_spec hq with ⟨rfl, h⟩ | ⟨p, l', q', rfl, h, hq'⟩
    · right; right
      refine ⟨M, ?_, hi, hc⟩
      rcases he : Queue.dequeue q with ⟨r, q'⟩
      rw [he] at h
      simp only at h
      simp [propagate, he, h]
    · have hp := hq.int p (by simp)
      have e : propagate nx ny mask (fuel + 1) (M, q) =
          match visit nx ny mask p np8 (M, q') with
          | .ok s => propagate nx ny mask fuel s
          | .failure => some .failure
          | .ub => some .ub := by
        simp only [propagate, h]
        rfl
      rw [e]
      rcases visit_spec hx hy hp np8 (fun _ h => h) M q' l' hi hq' (by
        intro b hb a ha hab
        rcases hc b hb a ha hab with h | h
        · exact Or.inl h
        · rcases List.mem_cons.1 h with rfl | h
          · exact Or.inr (Or.inr ⟨rfl, adj_nb hab⟩)
          · exact Or.inr (Or.inl h)) with hv | ⟨M1, q1, l1, k1, k2, k3, k4, k5⟩
      · rw [hv]; right; left; rfl
      · rw [k1]
        rcases ih M1 q1 l1 k2 k3 k4 with ⟨h1, h2⟩ | h1 | h1
        · left
          refine ⟨h1, ?_⟩
          simp only [List.length_cons]
          omega
        · exact Or.inr (Or.inl h1)
        · exact Or.inr (Or.inr h1)

/-! ## C12 -/

theorem level_of_closed {nx ny : Nat} {mask M : Img} (hi : Inv nx ny mask M) (hc : Closed nx ny mask M [])
    {q : Px} (hq : Inside nx ny q) : IsLevel nx ny mask q (M q) := by
  refine ⟨hi.reach q hq, ?_⟩
  intro u hu
  have key : ∀ q, Reach nx ny mask u q → Inside nx ny q ∧ M q ≤ u := by
    intro q h
    induction h with
    | border p hb hm => exact ⟨hb.1, by rw [hi.border p hb]; exact hm⟩
    | step p q _ ha hin hm ih =>
      refine ⟨hin, ?_⟩
      rcases border_or_interior hin with h | h
      · rw [hi.border q h]; exact hm
      · rcases hc q h p ih.1 ha with h' | h'
        · have := ih.2; omega
        · cases h'
  exact (key q hu).2

theorem reconstruct_spec (nx ny : Nat) (hx : nx ≤ 32768) (hy : ny ≤ 32768) (mask marker : Img) :
    ∃ bound : Nat, ∀ fuel,
      (reconstruct nx ny mask marker fuel = none ∧ fuel ≤ bound) ∨
      reconstruct nx ny mask marker fuel = some .failure ∨
      ∃ M, reconstruct nx ny mask marker fuel = some (.ok M) ∧ ∀ q, Inside nx ny q → IsLevel nx ny mask q (M q) := by
  obtain ⟨M1, r1, r2, _, r4⟩ := raster_spec (mask := mask) (interior nx ny) (fun p hp => mem_interior.1 hp)
    (init nx ny mask marker) (init_inv nx ny mask marker)
  by_cases hsz : nx * ny / 2 = 0
  · -- no interior
    have hno : ∀ p, ¬ Interior nx ny p := by
      rintro p ⟨h1, h2, h3, h4⟩
      have : 3 * 3 ≤ nx * ny := Nat.mul_le_mul (by omega) (by omega)
      omega
    have hemp : interior nx ny = [] := by
      apply List.eq_nil_iff_forall_not_mem.2
      intro p hp
      exact hno p (mem_interior.1 hp)
    have hM1 : M1 = init nx ny mask marker := by
      rw [hemp] at r1
      simp only [raster, Ret.ok.injEq] at r1
      exact r1.symm
    refine ⟨0, fun fuel => ?_⟩
    cases fuel with
    | zero =>
      left
      simp [reconstruct, hemp, raster, anti, Ret.bind, propagate]
    | succ fuel =>
      right; right
      refine ⟨M1, ?_, ?_⟩
      · simp [reconstruct, hemp, raster, anti, Ret.bind, propagate, Queue.dequeue, Queue.create, hM1]
      · intro q hq
        exact level_of_closed r2 (fun q hq => absurd hq (hno q)) hq
  · have hq0 : QRep nx ny (Queue.create (nx * ny / 2)) [] := by
      refine ⟨⟨?_, ?_, ?_, ?_, ?_⟩, by simp⟩
      · simp only [Queue.create]; omega
      · simp only [Queue.create]; omega
      · simp only [Queue.create, List.map_nil, List.length_nil]; omega
      · simp [Queue.create, Queue.pos]
      · intro i hi; simp at hi
    rcases anti_spec hx hy (mask := mask) (interior nx ny).reverse [] M1 _ [] (by
        intro p hp; exact mem_interior.1 (List.mem_reverse.1 hp))
      (by simpa [List.pairwise_reverse] using interior_sorted nx ny) r2 hq0 (by simp) (by simp) with
      h | ⟨M2, q2, l2, k1, k2, k3, k4, k5, k6⟩
    · refine ⟨0, fun fuel => Or.inr (Or.inl ?_)⟩
      simp [reconstruct, r1, Ret.bind, h]
    · have hcl : Closed nx ny mask M2 l2 := by
        intro q hq p hp hadj
        have hqm : q ∈ [] ++ (interior nx ny).reverse := by simpa using mem_interior.2 hq
        obtain ⟨o, ho, rfl⟩ := adj_nb (adj_symm hadj)
        obtain ⟨g0, g1, g2, g3, g4⟩ := mem_np8.1 ho
        by_cases h2 : o ∈ np2
        · left
          exact k5 q hqm o h2
        · have h1 : o ∈ np1 := by
            rw [mem_np1]
            rw [mem_np2] at h2
            have : ¬ (o.1 = 0 ∧ o.2 = 0) := fun h => g0 (Prod.ext h.1 h.2)
            omega
          rcases border_or_interior hp with hb | hb
          · left
            have a := r4 q (mem_interior.2 hq) o h1 hb
            have b := k4 q
            rw [k2.border _ hb]
            omega
          · have hneg : ((-o.1, -o.2) : Px) ∈ np2 := by
              rw [mem_np2]
              rw [mem_np1] at h1
              simp only
              omega
            have e : nb (nb q o) (-o.1, -o.2) = q := by
              apply Prod.ext <;> simp only [nb] <;> omega
            have := k6 (nb q o) (by simpa using mem_interior.2 hb) _ hneg
            rw [e] at this
            exact this
      refine ⟨2 * potential nx ny mask M2 + l2.length, fun fuel => ?_⟩
      have e : reconstruct nx ny mask marker fuel = propagate nx ny mask fuel (M2, q2) := by
        simp [reconstruct, r1, Ret.bind, k1]
      rw [e]
      rcases propagate_spec hx hy fuel M2 q2 l2 k2 k3 hcl with h | h | ⟨M', h1, h2, h3⟩
      · exact Or.inl h
      · exact Or.inr (Or.inl h)
      · exact Or.inr (Or.inr ⟨M', h1, fun q hq => level_of_closed h2 h3 hq⟩)

/-- C12: whenever the reconstruction succeeds, every pixel of the image holds the lowest level at which it
can be reached from the image border. -/
theorem c12_fill_level (nx ny : Nat) (hx : nx ≤ 32768) (hy : ny ≤ 32768) (mask marker M : Img) (fuel : Nat)
    (h : reconstruct nx ny mask marker fuel = some (.ok M)) (q : Px) (hq : Inside nx ny q) :
    IsLevel nx ny mask q (M q) := by
  obtain ⟨_, hb⟩ := reconstruct_spec nx ny hx hy mask marker
  rcases hb fuel with ⟨h', _⟩ | h' | ⟨M', h', hl⟩
  · rw [h] at h'; cases h'
  · rw [h] at h'; cases h'
  · rw [h] at h'
    cases h'
    exact hl q hq

/-- C12: the reconstruction never accesses memory outside of the images or of the queue. -/
theorem c12_in_bounds (nx ny : Nat) (hx : nx ≤ 32768) (hy : ny ≤ 32768) (mask marker : Img) (fuel : Nat) :
    reconstruct nx ny mask marker fuel ≠ some .ub := by
  obtain ⟨_, hb⟩ := reconstruct_spec nx ny hx hy mask marker
  intro hu
  rcases hb fuel with ⟨h', _⟩ | h' | ⟨M', h', hl⟩ <;> (rw [hu] at h'; cases h')

/-- C12: the reconstruction terminates: with a full queue it fails, otherwise it succeeds. -/
theorem c12_terminates (nx ny : Nat) (hx : nx ≤ 32768) (hy : ny ≤ 32768) (mask marker : Img) :
    ∃ fuel r, reconstruct nx ny mask marker fuel = some r := by
  obtain ⟨b, hb⟩ := reconstruct_spec nx ny hx hy mask marker
  refine ⟨b + 1, ?_⟩
  rcases hb (b + 1) with ⟨_, h'⟩ | h' | ⟨M', h', hl⟩
  · omega
  · exact ⟨_, h'⟩
  · exact ⟨_, h'⟩

/-- A hole in a 5 × 5 image: the walls are 9, one of them has a gap of 4 in the top right. -/
def demo : Img := fun p =>
  if p.1 = 0 ∨ p.2 = 0 ∨ p.1 = 4 ∨ p.2 = 4 then 2
  else if p = (2, 2) then 1 else if p = (1, 3) then 4 else 9

/-- The reconstruction succeeds on a non-trivial image: the hole is filled up to the gap. -/
example : (reconstruct 5 5 demo (fun _ => 0) 20).bind (fun r => match r with
    | .ok M => some (M (2, 2), M (1, 3), M (3, 3), M (0, 0)) | _ => none) = some (4, 4, 9, 2) := by
  decide +kernel

end Verif.Recon
