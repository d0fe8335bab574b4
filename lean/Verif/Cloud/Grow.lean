import Verif.Cloud.Spec
import Verif.Recon.Props
import Mathlib.Tactic.Linarith

/-!
# Clouds of Sentinel-2 (C127): region growing
-/

namespace Verif.Cloud

open Verif.Str (Out)
open Verif.Recon (Px Ret inside nb np8 pixels mem_pixels inside_iff mem_np8 nb_adj adj_nb enq)
open Verif.Recon.Spec (Inside Adj)
open Verif.Queue (Q Rep)
open Verif.Cloud.Spec

/-- Queue entry of a cell. -/
def swap (p : Px) : Int × Int := (p.2, p.1)

theorem enq_ok {nx ny : Nat} (hx : nx ≤ 32768) (hy : ny ≤ 32768) {q : Q} {l : List Px} (hr : Rep q (l.map swap)) (hl : l.length + 1 < q.size) {p : Px}
    (hp : Inside nx ny p) : ∃ q', enq q p = .ok q' ∧ Rep q' ((l ++ [p]).map swap) ∧ q'.size = q.size := by
  obtain ⟨h1, h2, h3, h4⟩ := hp
  obtain ⟨s1, s2, s3⟩ := Queue.rep_step q _ (.enq p.2 p.1) hr ⟨⟨by omega, by omega⟩, by omega, by omega⟩
  simp only [Queue.step, Queue.Spec.step] at s1 s2 s3
  have hne : ¬ (l.map swap).length = q.size - 1 := by simp; omega
  rw [if_neg hne] at s1 s2
  rcases he : Queue.enqueue q p.2 p.1 with ⟨r, q'⟩
  rw [he] at s1 s2 s3
  simp only at s1 s2 s3
  refine ⟨q', ?_, by simpa [swap] using s2, s3⟩
  unfold enq
  rw [he]
  simp [s1]

theorem deq_ok {q : Q} {l : List Px} (hr : Rep q (l.map swap)) :
    (l = [] ∧ ∃ q', Queue.dequeue q = (.failure, q')) ∨
    ∃ p l' q', l = p :: l' ∧ Queue.dequeue q = (.success p.2 p.1, q') ∧ Rep q' (l'.map swap) ∧ q'.size = q.size := by
  obtain ⟨s1, s2, s3⟩ := Queue.rep_step q _ .deq hr trivial
  simp only [Queue.step] at s1 s2 s3
  cases l with
  | nil => left; exact ⟨rfl, (Queue.dequeue q).2, Prod.ext (by simpa [Queue.Spec.step] using s1) rfl⟩
  | cons p l =>
    right
    simp only [List.map_cons, Queue.Spec.step, swap] at s1 s2
    exact ⟨p, l, (Queue.dequeue q).2, rfl, Prod.ext s1 rfl, s2, s3⟩

theorem length_pixels (nx ny : Nat) : (pixels nx ny).length = nx * ny := by
  simp only [pixels, List.length_flatMap, List.length_map, List.length_range]
  simp [List.map_const', Nat.mul_comm]

theorem length_le {nx ny : Nat} {l : List Px} (hn : l.Nodup) (hi : ∀ p ∈ l, Inside nx ny p) : l.length ≤ nx * ny := by
  rw [← length_pixels nx ny]
  exact (hn.subperm fun p hp => mem_pixels.2 (hi p hp)).length_le

theorem filter_lt {α : Type} (l : List α) (f g : α → Bool) (h : ∀ x, f x = true → g x = true) (hx : ∃ x ∈ l, g x = true ∧ f x = false) :
    (l.filter f).length < (l.filter g).length := by
  have hle : ∀ l : List α, (l.filter f).length ≤ (l.filter g).length := by
    intro l
    induction l with
    | nil => simp
    | cons a l ih =>
      by_cases hf : f a = true
      · simp [hf, h a hf, ih]
      · by_cases hg : g a = true
        · simp [hf, hg]; omega
        · simp [hf, hg, ih]
  induction l with
  | nil => simp at hx
  | cons a l ih =>
    obtain ⟨x, hm, hg, hf⟩ := hx
    rcases List.mem_cons.1 hm with rfl | hm
    · have := hle l
      simp [hf, hg]; omega
    · have := ih ⟨x, hm, hg, hf⟩
      by_cases hf' : f a = true
      · simp [hf', h a hf']; omega
      · by_cases hg' : g a = true
        · simp [hf', hg']; omega
        · simp [hf', hg']; omega

/-- Cells that are not cloud yet. -/
def open' (nx ny : Nat) (clouds : Px → Bool) : Nat := ((pixels nx ny).filter fun p => !clouds p).length

/-- Invariant of the region growing: `busy` (the cell that is being expanded) and `l` (the queue) still have to be expanded. -/
structure Inv (nx ny : Nat) (cdi : Cdi) (seeds : Px → Bool) (clouds : Px → Bool) (q : Q) (busy l : List Px) : Prop where
  rep : Rep q (l.map swap)
  size : q.size = nx * ny
  nodup : (busy ++ l).Nodup
  mem : ∀ p ∈ busy ++ l, Inside nx ny p ∧ clouds p = true
  grown : ∀ p, clouds p = true → Grown nx ny (fun p => seeds p = true) (fun p => candidate cdi p = true) p
  seeds : ∀ p, seeds p = true → clouds p = true
  closed : ∀ p, clouds p = true → p ∉ busy ++ l → ∀ s, Adj p s → Inside nx ny s → candidate cdi s = true → clouds s = true

theorem add_spec {nx ny : Nat} (hx : nx ≤ 32768) (hy : ny ≤ 32768) {cdi : Cdi} {seeds : Px → Bool} {p : Px} (offs : List Px) (ho : offs ⊆ np8) :
    ∀ {clouds : Px → Bool} {q : Q} {l : List Px}, Inv nx ny cdi seeds clouds q [p] l →
    ∃ clouds' q' l', addNeighbours nx ny cdi p offs (clouds, q) = .ok (clouds', q') ∧ Inv nx ny cdi seeds clouds' q' [p] l' ∧
      (∀ r, clouds r = true → clouds' r = true) ∧ (∀ o ∈ offs, Inside nx ny (nb p o) → candidate cdi (nb p o) = true → clouds' (nb p o) = true) ∧
      open' nx ny clouds' + l'.length ≤ open' nx ny clouds + l.length := by
  induction offs with
  | nil =>
    intro clouds q l hi
    exact ⟨clouds, q, l, rfl, hi, fun _ h => h, by simp, le_rfl⟩
  | cons o os ih =>
    intro clouds q l hi
    have ho' : os ⊆ np8 := fun x hx => ho (by simp [hx])
    have hmem : o ∈ np8 := ho (by simp)
    by_cases hc : (inside nx ny (nb p o) && !clouds (nb p o) && candidate cdi (nb p o)) = true
    · simp only [Bool.and_eq_true, Bool.not_eq_true', inside_iff] at hc
      obtain ⟨⟨c1, c2⟩, c3⟩ := hc
      have hpm := hi.mem p (by simp)
      have hnl : nb p o ∉ [p] ++ l := fun h => by have := (hi.mem _ h).2; rw [c2] at this; cases this
      have hn2 : (p :: nb p o :: l).Nodup := by
        have h1 := hi.nodup
        simp only [List.singleton_append, List.nodup_cons, List.mem_cons, not_or] at h1 hnl ⊢
        exact ⟨⟨fun h => hnl.1 h.symm, h1.1⟩, hnl.2, h1.2⟩
      have hlen : l.length + 1 < q.size := by
        rw [hi.size]
        have := length_le (nx := nx) (ny := ny) hn2 (fun r hr => by
          rcases List.mem_cons.1 hr with rfl | hr
          · exact hpm.1
          · rcases List.mem_cons.1 hr with rfl | hr
            · exact c1
            · exact (hi.mem r (by simp [hr])).1)
        simp at this
        omega
      obtain ⟨q1, e1, r1, z1⟩ := enq_ok hx hy hi.rep hlen c1
      have hi' : Inv nx ny cdi seeds (fun r => if r = nb p o then true else clouds r) q1 [p] (l ++ [nb p o]) := by
        refine ⟨r1, by rw [z1, hi.size], ?_, ?_, ?_, ?_, ?_⟩
        · rw [← List.append_assoc, List.nodup_append]
          refine ⟨hi.nodup, by simp, ?_⟩
          intro a ha b hb
          rw [List.mem_singleton] at hb
          rintro rfl
          exact hnl (hb ▸ ha)
        · intro r hr
          rw [← List.append_assoc, List.mem_append, List.mem_singleton] at hr
          rcases hr with hr | rfl
          · refine ⟨(hi.mem r hr).1, ?_⟩
            simp [(hi.mem r hr).2]
          · exact ⟨c1, by simp⟩
        · intro r hr
          by_cases h : r = nb p o
          · rw [h]
            exact .step p _ (hi.grown p hpm.2) (nb_adj hmem) c1 c3
          · rw [if_neg h] at hr
            exact hi.grown r hr
        · intro r hr
          simp [hi.seeds r hr]
        · intro r hr hnr s ha hs hcs
          have hne : r ≠ nb p o := by
            rintro rfl
            exact hnr (by simp)
          rw [if_neg hne] at hr
          have := hi.closed r hr (fun h => hnr (by rw [← List.append_assoc, List.mem_append]; exact Or.inl h)) s ha hs hcs
          simp [this]
      obtain ⟨clouds', q', l', e, i', m', n', s'⟩ := ih ho' hi'
      refine ⟨clouds', q', l', ?_, i', ?_, ?_, ?_⟩
      · rw [addNeighbours]
        rw [if_pos (by simp [inside_iff.2 c1, c2, c3]), e1]
        exact e
      · intro r hr
        exact m' r (by simp [hr])
      · intro o2 h2 hins hcan
        rcases List.mem_cons.1 h2 with rfl | h2
        · exact m' _ (by simp)
        · exact n' o2 h2 hins hcan
      · have hlt : open' nx ny (fun r => if r = nb p o then true else clouds r) < open' nx ny clouds := by
          refine filter_lt _ _ _ ?_ ⟨nb p o, mem_pixels.2 c1, by simp [c2], by simp⟩
          intro r hr
          by_cases h : r = nb p o
          · simp [h] at hr
          · simpa [h] using hr
        simp only [List.length_append, List.length_singleton] at s'
        omega
    · obtain ⟨clouds', q', l', e, i', m', n', s'⟩ := ih ho' hi
      refine ⟨clouds', q', l', ?_, i', m', ?_, s'⟩
      · rw [addNeighbours, if_neg hc]
        exact e
      · intro o2 h2 hins hcan
        rcases List.mem_cons.1 h2 with rfl | h2
        · simp only [Bool.and_eq_true, Bool.not_eq_true', inside_iff, not_and] at hc
          by_cases hcl : clouds (nb p o2) = true
          · exact m' _ hcl
          · exact absurd hcan (hc ⟨hins, by simpa using hcl⟩)
        · exact n' o2 h2 hins hcan

theorem grow_spec {nx ny : Nat} (hx : nx ≤ 32768) (hy : ny ≤ 32768) {cdi : Cdi} {seeds : Px → Bool} :
    ∀ (fuel : Nat) {clouds : Px → Bool} {q : Q} {l : List Px}, Inv nx ny cdi seeds clouds q [] l → open' nx ny clouds + l.length < fuel →
    ∃ clouds', grow nx ny cdi fuel (clouds, q) = some (.ok clouds') ∧
      ∀ p, clouds' p = true ↔ Grown nx ny (fun p => seeds p = true) (fun p => candidate cdi p = true) p := by
  intro fuel
  induction fuel with
  | zero => intro clouds q l _ h; omega
  | succ fuel ih =>
    intro clouds q l hi hf
    rcases deq_ok hi.rep with ⟨rfl, q', hd⟩ | ⟨p, l', q', rfl, hd, hr, hz⟩
    · refine ⟨clouds, by rw [grow, hd], ?_⟩
      intro p
      constructor
      · exact hi.grown p
      · intro h
        induction h with
        | seed p _ hs => exact hi.seeds p hs
        | step p s _ ha hs hm ih2 => exact hi.closed p ih2 (by simp) s ha hs hm
    · have hi' : Inv nx ny cdi seeds clouds q' [p] l' :=
        ⟨hr, by rw [hz, hi.size], by simpa using hi.nodup, by simpa using hi.mem, hi.grown, hi.seeds, by simpa using hi.closed⟩
      obtain ⟨clouds', q2, l2, e, i2, m2, n2, s2⟩ := add_spec hx hy np8 (fun _ h => h) hi'
      have hi3 : Inv nx ny cdi seeds clouds' q2 [] l2 := by
        refine ⟨i2.rep, i2.size, ?_, ?_, i2.grown, i2.seeds, ?_⟩
        · have := i2.nodup
          simp only [List.singleton_append, List.nodup_cons] at this
          simpa using this.2
        · intro r hr
          exact i2.mem r (by simp at hr; simp [hr])
        · intro r hr hn s ha hs hc
          by_cases h : r = p
          · subst h
            obtain ⟨o, ho, rfl⟩ := adj_nb ha
            exact n2 o ho hs hc
          · exact i2.closed r hr (by simp at hn; simp [hn, h]) s ha hs hc
      obtain ⟨c3, e3, h3⟩ := ih hi3 (by simp only [List.length_cons] at hf; omega)
      refine ⟨c3, ?_, h3⟩
      rw [grow, hd]
      simp only [e]
      exact e3

/-- The test in `collect`. -/
def edge (nx ny : Nat) (cdi : Cdi) (clouds : Px → Bool) (p : Px) : Bool :=
  clouds p && np8.any fun o => inside nx ny (nb p o) && !clouds (nb p o) && candidate cdi (nb p o)

theorem collect_spec {nx ny : Nat} (hx : nx ≤ 32768) (hy : ny ≤ 32768) {cdi : Cdi} {clouds : Px → Bool} (ps : List Px) :
    ∀ {q : Q} {l : List Px}, (l ++ ps).Nodup → (∀ p ∈ l ++ ps, Inside nx ny p) → (∀ p ∈ l, edge nx ny cdi clouds p = true) → Rep q (l.map swap) →
      q.size = nx * ny → ∃ q', collect nx ny cdi clouds ps q = .ok q' ∧ Rep q' ((l ++ ps.filter (edge nx ny cdi clouds)).map swap) ∧ q'.size = nx * ny := by
  induction ps with
  | nil =>
    intro q l _ _ _ hr hz
    exact ⟨q, rfl, by simpa using hr, hz⟩
  | cons p ps ih =>
    intro q l hn hin he hr hz
    by_cases hc : edge nx ny cdi clouds p = true
    · have hc2 := hc
      simp only [edge, Bool.and_eq_true, List.any_eq_true, Bool.not_eq_true', inside_iff] at hc2
      obtain ⟨hcl, o, ho, ⟨h1, h2⟩, h3⟩ := hc2
      have hpl : p ∉ l := by
        intro h
        rw [List.nodup_append] at hn
        exact hn.2.2 p h p (by simp) rfl
      have hlen : l.length + 1 < q.size := by
        rw [hz]
        have hn2 : (nb p o :: p :: l).Nodup := by
          have hl := (List.nodup_append.1 hn).1
          simp only [List.nodup_cons, List.mem_cons, not_or]
          refine ⟨⟨?_, ?_⟩, hpl, hl⟩
          · intro h; rw [h, hcl] at h2; cases h2
          · intro h
            have := he _ h
            simp [edge, h2] at this
        have := length_le (nx := nx) (ny := ny) hn2 (fun r hr => by
          rcases List.mem_cons.1 hr with rfl | hr
          · exact h1
          · exact hin r (by
              rcases List.mem_cons.1 hr with rfl | hr
              · simp
              · simp [hr]))
        simp at this
        omega
      obtain ⟨q1, e1, r1, z1⟩ := enq_ok hx hy hr hlen (hin p (by simp))
      obtain ⟨q2, e2, r2, z2⟩ := ih (q := q1) (l := l ++ [p]) (by simpa using hn) (by simpa using hin) (by
        intro r hr
        rcases List.mem_append.1 hr with h | h
        · exact he r h
        · rw [List.mem_singleton.1 h]; exact hc) r1 (by rw [z1, hz])
      refine ⟨q2, ?_, ?_, z2⟩
      · rw [collect]
        rw [if_pos (by simpa [edge] using hc), e1]
        exact e2
      · rw [List.filter_cons_of_pos hc]
        simpa using r2
    · obtain ⟨q2, e2, r2, z2⟩ := ih (q := q) (l := l) (by
          refine hn.sublist ?_
          simp) (fun r hr => hin r (by
            rcases List.mem_append.1 hr with h | h
            · simp [h]
            · simp [h])) he hr hz
      refine ⟨q2, ?_, ?_, z2⟩
      · rw [collect]
        rw [if_neg (by simpa [edge] using hc)]
        exact e2
      · rw [List.filter_cons_of_neg hc]
        exact r2

theorem nodup_pixels (nx ny : Nat) : (pixels nx ny).Nodup := by
  unfold pixels
  rw [List.nodup_flatMap]
  constructor
  · intro a _
    exact List.Nodup.map (fun x y h => by simpa using h) List.nodup_range
  · refine List.nodup_range.imp ?_
    intro a b hab x hx hy
    simp only [List.mem_map, List.mem_range] at hx hy
    obtain ⟨_, _, rfl⟩ := hx
    obtain ⟨_, _, h⟩ := hy
    simp only [Prod.mk.injEq] at h
    omega

/-- **C127** The region growing ends, never fills the queue, and its result does not depend on the order in which cells are visited: a cell is cloud if and only if it is
connected with a seed by neighbouring cells that may be added. -/
theorem c127_region (nx ny : Nat) (hx1 : 1 ≤ nx) (hy1 : 1 ≤ ny) (hx : nx ≤ 32768) (hy : ny ≤ 32768) (cdi : Cdi) (seeds : Px → Bool)
    (hs : ∀ p, seeds p = true → Inside nx ny p) (fuel : Nat) (hf : nx * ny < fuel) :
    ∃ clouds, region nx ny cdi seeds fuel = some (.ok clouds) ∧
      ∀ p, clouds p = true ↔ Grown nx ny (fun p => seeds p = true) (fun p => ∃ c, cdi p = .num c ∧ -1 ≤ c ∧ c < -1 / 4) p := by
  have hpos : 0 < nx * ny := Nat.mul_pos hx1 hy1
  have hrep : Rep (Queue.create (nx * ny)) (([] : List Px).map swap) := by
    refine ⟨hpos, hpos, hpos, ?_, ?_⟩
    · simp [Queue.create, Queue.pos, hpos]
    · intro i hi; simp at hi
  obtain ⟨q, e, r, z⟩ := collect_spec hx hy (cdi := cdi) (clouds := seeds) (pixels nx ny) (l := []) (by simpa using nodup_pixels nx ny)
    (fun p hp => mem_pixels.1 (by simpa using hp)) (by simp) hrep rfl
  have hi : Inv nx ny cdi seeds seeds q [] ((pixels nx ny).filter (edge nx ny cdi seeds)) := by
    refine ⟨by simpa using r, z, ?_, ?_, ?_, fun _ h => h, ?_⟩
    · simpa using (nodup_pixels nx ny).filter _
    · intro p hp
      simp only [List.nil_append, List.mem_filter, mem_pixels, edge, Bool.and_eq_true] at hp
      exact ⟨hp.1, hp.2.1⟩
    · intro p hp
      exact .seed p (hs p hp) hp
    · intro p hp hn s ha hins hc
      simp only [List.nil_append, List.mem_filter, mem_pixels, edge, Bool.and_eq_true, hp, true_and, not_and] at hn
      have := hn (hs p hp)
      simp only [List.any_eq_true, not_exists, Bool.and_eq_true, inside_iff, Bool.not_eq_true', not_and] at this
      obtain ⟨o, ho, rfl⟩ := adj_nb ha
      by_contra hcl
      exact this o ho ⟨hins, by simpa using hcl⟩ hc
  have hm : open' nx ny seeds + ((pixels nx ny).filter (edge nx ny cdi seeds)).length < fuel := by
    have : ∀ l : List Px, (l.filter fun p => !seeds p).length + (l.filter (edge nx ny cdi seeds)).length ≤ l.length := by
      intro l
      induction l with
      | nil => simp
      | cons a l ih =>
        by_cases ha : seeds a = true
        · by_cases hb : edge nx ny cdi seeds a = true
          · simp [ha, hb]; omega
          · simp [ha, hb]; omega
        · have hb : edge nx ny cdi seeds a = false := by simp [edge, ha]
          simp [ha, hb]; omega
    have h1 := this (pixels nx ny)
    rw [length_pixels] at h1
    unfold open'
    omega
  obtain ⟨clouds, e2, h2⟩ := grow_spec hx hy fuel hi hm
  refine ⟨clouds, ?_, ?_⟩
  · unfold region
    rw [e]
    exact e2
  · intro p
    rw [h2 p]
    have hcand : (fun p => candidate cdi p = true) = fun p => ∃ c, cdi p = .num c ∧ -1 ≤ c ∧ c < -1 / 4 := by
      funext r
      unfold candidate
      cases h : cdi r <;> simp [and_comm]
    rw [hcand]

/-- **C127** The seeds: cells in the image whose displacement index is -0.5 or less, or negative with a local variability above 0.8, unless the cell itself or one of its
neighbours has no index, or an index above -0.5 with a variability below 0.8. -/
theorem c127_seeds (nx ny : Nat) (cdi : Cdi) (var : Px → ℚ) (p : Px) :
    core nx ny cdi var p = true ↔ Inside nx ny p ∧ (∃ c, cdi p = .num c ∧ (c ≤ -1 / 2 ∨ (var p > 8 / 10 ∧ c < 0))) ∧
      ∀ s, Inside nx ny s → (s = p ∨ Adj p s) → cdi s ≠ .nodata ∧ ¬ ∃ c, cdi s = .num c ∧ c > -1 / 2 ∧ var s < 8 / 10 := by
  have hcore : coreCell cdi var p = true ↔ ∃ c, cdi p = .num c ∧ (c ≤ -1 / 2 ∨ (var p > 8 / 10 ∧ c < 0)) := by
    unfold coreCell
    cases h : cdi p <;> simp
  have hpoor : ∀ s, poor cdi var s = true ↔ ¬ (cdi s ≠ .nodata ∧ ¬ ∃ c, cdi s = .num c ∧ c > -1 / 2 ∧ var s < 8 / 10) := by
    intro s
    unfold poor
    cases h : cdi s <;> simp
  simp only [core, Bool.and_eq_true, inside_iff, hcore, and_assoc, List.all_eq_true]
  refine and_congr_right fun _ => and_congr_right fun _ => ?_
  constructor
  · intro h s hs hps
    have key : ∃ o ∈ (0, 0) :: np8, s = nb p o := by
      rcases hps with rfl | ha
      · exact ⟨(0, 0), by simp, by simp [nb]⟩
      · obtain ⟨o, ho, e⟩ := adj_nb ha
        exact ⟨o, by simp [ho], e⟩
    obtain ⟨o, ho, e⟩ := key
    have := h o ho
    rw [← e, inside_iff.2 hs] at this
    have h2 : ¬ poor cdi var s = true := by simpa using this
    rw [hpoor, not_not] at h2
    exact h2
  · intro h o ho
    by_cases hi : Inside nx ny (nb p o)
    · have hps : nb p o = p ∨ Adj p (nb p o) := by
        rcases List.mem_cons.1 ho with rfl | ho
        · left; simp [nb]
        · right; exact nb_adj ho
      have := h _ hi hps
      rw [inside_iff.2 hi]
      have h2 : ¬ poor cdi var (nb p o) = true := by rw [hpoor, not_not]; exact this
      simpa using h2
    · have : inside nx ny (nb p o) = false := by
        by_contra hc
        exact hi (inside_iff.1 (by simpa using hc))
      simp [this]

/-- **C127** The mask: a pixel is cloud if and only if it is bright, and saturated or part of a cell that is cloud; every pixel belongs to the cell of its block of 2 x 2
pixels (`nx`, `ny`: number of cells). -/
theorem c127_mask (nx ny : Nat) (clouds : Px → Bool) (sat bright : Nat → Nat → Bool) (i j : Nat) :
    restore nx ny clouds sat bright i j = true ↔
      bright i j = true ∧ (sat i j = true ∨ ∃ a b, a < ny ∧ b < nx ∧ (i = 2 * a ∨ i = 2 * a + 1) ∧ (j = 2 * b ∨ j = 2 * b + 1) ∧
        clouds ((a : Int), (b : Int)) = true) := by
  simp only [restore, Bool.and_eq_true, Bool.or_eq_true, decide_eq_true_eq]
  rw [and_comm]
  refine and_congr_right fun _ => or_congr Iff.rfl ?_
  constructor
  · rintro ⟨⟨h1, h2⟩, h3⟩
    exact ⟨i / 2, j / 2, h1, h2, by omega, by omega, h3⟩
  · rintro ⟨a, b, ha, hb, hi, hj, hc⟩
    have e1 : i / 2 = a := by omega
    have e2 : j / 2 = b := by omega
    rw [e1, e2]
    exact ⟨⟨ha, hb⟩, hc⟩

theorem mem_written {nx ny : Nat} {off pcp : Nat → Nat → Bool} {p : Nat} :
    p ∈ written nx ny off pcp ↔ ∃ i j, 2 * i < ny ∧ 2 * j < nx ∧ blockWritten nx ny off pcp (2 * i) (2 * j) = true ∧ p = i * (nx / 2) + j := by
  simp only [written, List.mem_flatMap, List.mem_range, List.mem_filterMap, Option.ite_none_right_eq_some, Option.some.injEq]
  constructor
  · rintro ⟨i, hi, j, hj, hb, rfl⟩
    exact ⟨i, j, by omega, by omega, hb, rfl⟩
  · rintro ⟨i, j, hi, hj, hb, rfl⟩
    exact ⟨i, by omega, j, by omega, hb, rfl⟩

/-- **C127** If the numbers of rows and columns are even, the ratios of a block of 2 x 2 pixels are stored for this block only: all writes are to existing cells, and two blocks do not
share a cell. What is missing: images with an odd number of rows or columns. -/
theorem c127_blocks_partial (nx ny : Nat) (hx : nx % 2 = 0) (hy : ny % 2 = 0) (off pcp : Nat → Nat → Bool) :
    ∃ l, ratios nx ny off pcp = .ok l ∧
      (∀ p, p ∈ l ↔ ∃ i j, i < ny / 2 ∧ j < nx / 2 ∧ p = i * (nx / 2) + j ∧ off (2 * i) (2 * j) = false ∧
        ∃ a b, a ≤ 1 ∧ b ≤ 1 ∧ off (2 * i + a) (2 * j + b) = false ∧ pcp (2 * i + a) (2 * j + b) = true) ∧
      ∀ i j i' j', j < nx / 2 → j' < nx / 2 → i * (nx / 2) + j = i' * (nx / 2) + j' → i = i' ∧ j = j' := by
  have hlt : ∀ p ∈ written nx ny off pcp, p < (nx / 2) * (ny / 2) := by
    intro p hp
    obtain ⟨i, j, hi, hj, _, rfl⟩ := mem_written.1 hp
    have h1 : i + 1 ≤ ny / 2 := by omega
    have h2 : j < nx / 2 := by omega
    nlinarith
  refine ⟨written nx ny off pcp, ?_, ?_, ?_⟩
  · unfold ratios
    rw [if_pos]
    simpa [List.all_eq_true] using hlt
  · intro p
    rw [mem_written]
    constructor
    · rintro ⟨i, j, hi, hj, hb, rfl⟩
      simp only [blockWritten, List.any_cons, List.any_nil, Bool.or_false, Bool.and_eq_true, Bool.not_eq_true', Bool.or_eq_true, decide_eq_true_eq] at hb
      refine ⟨i, j, by omega, by omega, rfl, hb.1, ?_⟩
      rcases hb.2 with h | h | h | h
      · exact ⟨0, 0, by omega, by omega, h.1.2, h.2⟩
      · exact ⟨0, 1, by omega, by omega, h.1.2, h.2⟩
      · exact ⟨1, 0, by omega, by omega, h.1.2, h.2⟩
      · exact ⟨1, 1, by omega, by omega, h.1.2, h.2⟩
    · rintro ⟨i, j, hi, hj, rfl, ho, a, b, ha, hb, h1, h2⟩
      refine ⟨i, j, by omega, by omega, ?_, rfl⟩
      simp only [blockWritten, List.any_cons, List.any_nil, Bool.or_false, Bool.and_eq_true, Bool.not_eq_true', Bool.or_eq_true, decide_eq_true_eq]
      refine ⟨ho, ?_⟩
      have ha' : a = 0 ∨ a = 1 := by omega
      have hb' : b = 0 ∨ b = 1 := by omega
      rcases ha' with rfl | rfl <;> rcases hb' with rfl | rfl
      · left; exact ⟨⟨⟨by omega, by omega⟩, h1⟩, h2⟩
      · right; left; exact ⟨⟨⟨by omega, by omega⟩, h1⟩, h2⟩
      · right; right; left; exact ⟨⟨⟨by omega, by omega⟩, h1⟩, h2⟩
      · right; right; right; exact ⟨⟨⟨by omega, by omega⟩, h1⟩, h2⟩
  · intro i j i' j' hj hj' h
    have h1 := congrArg (· / (nx / 2)) h
    have h2 := congrArg (· % (nx / 2)) h
    have hpos : 0 < nx / 2 := by omega
    simp only [Nat.mul_comm i, Nat.mul_comm i', Nat.mul_add_div hpos, Nat.mul_add_mod, Nat.div_eq_of_lt hj, Nat.div_eq_of_lt hj', Nat.mod_eq_of_lt hj,
      Nat.mod_eq_of_lt hj'] at h1 h2
    exact ⟨by omega, h2⟩

/-- C127, violated: if the number of rows is odd and there is a valid, potentially cloudy pixel in the last row (in an even column), the program writes outside of its arrays. -/
theorem c127_rows_violated (nx ny : Nat) (hy : ny % 2 = 1) (off pcp : Nat → Nat → Bool) (j : Nat) (hj : 2 * j < nx) (ho : off (ny - 1) (2 * j) = false)
    (hp : pcp (ny - 1) (2 * j) = true) : ratios nx ny off pcp = .ub := by
  unfold ratios
  rw [if_neg]
  intro h
  rw [List.all_eq_true] at h
  have hm : (ny / 2) * (nx / 2) + j ∈ written nx ny off pcp := by
    refine mem_written.2 ⟨ny / 2, j, by omega, hj, ?_, rfl⟩
    have e : 2 * (ny / 2) = ny - 1 := by omega
    rw [e]
    simp only [blockWritten, List.any_cons, Nat.add_zero, ho, hp]
    simp
    left
    omega
  have := h _ hm
  simp only [decide_eq_true_eq] at this
  rw [Nat.mul_comm] at this
  omega

/-- C127, violated: if the number of columns is odd, the ratios of the last column are stored in the first cell of the next row, even if there is no potential cloud in the block of
this cell (no pixel of the block has data, say). -/
theorem c127_columns_violated (nx ny : Nat) (hx : nx % 2 = 1) (off pcp : Nat → Nat → Bool) (i : Nat) (hi : 2 * i < ny) (ho : off (2 * i) (nx - 1) = false)
    (hp : pcp (2 * i) (nx - 1) = true) : (i + 1) * (nx / 2) + 0 ∈ written nx ny off pcp := by
  refine mem_written.2 ⟨i, nx / 2, hi, by omega, ?_, by rw [Nat.add_mul]; omega⟩
  have e : 2 * (nx / 2) = nx - 1 := by omega
  rw [e]
  simp only [blockWritten, List.any_cons, Nat.add_zero, ho, hp]
  simp
  left
  omega

end Verif.Cloud
