import Verif.Csd.Model
import Mathlib.Data.List.Nodup
import Mathlib.Data.List.Pairwise

/-!
# Selection and download of scenes
-/

namespace Verif.Csd

/-- What the user asks for. -/
def Wanted (q : Query) (s : Scene) : Prop :=
  s.tile ∈ q.tiles ∧ s.sensor ∈ q.sensors ∧ (q.start ≤ s.date ∧ s.date ≤ q.stop) ∧ q.cloudMin ≤ s.cloud ∧ s.cloud ≤ q.cloudMax

theorem keep_iff (q : Query) (s : Scene) : keep q s = true ↔ Wanted q s := by
  unfold keep Wanted
  simp only [Bool.and_eq_true, decide_eq_true_eq]
  tauto

instance : Std.Total before := ⟨fun a b => by unfold before; omega⟩
instance : IsTrans Scene before := ⟨fun a b c => by unfold before; omega⟩

theorem firsts_mem {seen : List (String × Nat)} {l : List Scene} {s : Scene} (h : s ∈ firsts seen l) : s ∈ l ∧ key s ∉ seen := by
  induction l generalizing seen with
  | nil => simp [firsts] at h
  | cons a l ih =>
    rw [firsts] at h
    split at h
    · exact ⟨List.mem_cons_of_mem _ (ih h).1, (ih h).2⟩
    · rename_i hk
      rcases List.mem_cons.1 h with rfl | h
      · exact ⟨List.mem_cons_self, hk⟩
      · have := ih h
        exact ⟨List.mem_cons_of_mem _ this.1, fun hh => this.2 (List.mem_cons_of_mem _ hh)⟩

theorem firsts_cover {seen : List (String × Nat)} {l : List Scene} (hp : l.Pairwise before) {s : Scene} (h : s ∈ l) (hk : key s ∉ seen) :
    ∃ x ∈ firsts seen l, key x = key s ∧ before x s := by
  induction l generalizing seen with
  | nil => simp at h
  | cons a l ih =>
    rw [List.pairwise_cons] at hp
    rw [firsts]
    split
    · rename_i ha
      rcases List.mem_cons.1 h with rfl | h
      · exact absurd ha hk
      · exact ih hp.2 h hk
    · rcases List.mem_cons.1 h with rfl | h
      · exact ⟨s, List.mem_cons_self, rfl, by unfold before; omega⟩
      · by_cases e : key s = key a
        · exact ⟨a, List.mem_cons_self, e.symm, hp.1 s h⟩
        · obtain ⟨x, h1, h2⟩ := ih hp.2 h (seen := key a :: seen) (by simp [e, hk])
          exact ⟨x, List.mem_cons_of_mem _ h1, h2⟩

theorem firsts_pairwise (seen : List (String × Nat)) (l : List Scene) : (firsts seen l).Pairwise fun a b => key a ≠ key b := by
  induction l generalizing seen with
  | nil => simp [firsts]
  | cons a l ih =>
    rw [firsts]
    split
    · exact ih seen
    · rw [List.pairwise_cons]
      refine ⟨fun b hb e => (firsts_mem hb).2 (by simp [e]), ih _⟩

theorem mem_select {q : Query} {cat : List Scene} {s : Scene} : s ∈ select q cat ↔ s ∈ firsts [] ((cat.filter (keep q)).insertionSort before) := by
  unfold select
  rw [List.mem_insertionSort]

/-- C166: every scene in the selection is in the catalogue and meets all criteria; the selection is sorted by date. -/
theorem c166_criteria (q : Query) (cat : List Scene) :
    (∀ s ∈ select q cat, s ∈ cat ∧ Wanted q s) ∧ (select q cat).Pairwise fun a b => a.date ≤ b.date := by
  constructor
  · intro s hs
    have := (firsts_mem (mem_select.1 hs)).1
    rw [List.mem_insertionSort, List.mem_filter, keep_iff] at this
    exact this
  · haveI : Std.Total fun a b : Scene => a.date ≤ b.date := ⟨fun a b => Nat.le_total _ _⟩
    haveI : IsTrans Scene fun a b => a.date ≤ b.date := ⟨fun a b c => Nat.le_trans⟩
    exact List.pairwise_insertionSort _ _

/-- C166: for every scene of the catalogue that meets the criteria, exactly one scene of the same tile and day is selected, and none of the scenes of this
tile and day has a later baseline, or the same baseline and a later generation. -/
theorem c166_latest (q : Query) (cat : List Scene) (s : Scene) (hs : s ∈ cat) (hw : Wanted q s) :
    ∃ x ∈ select q cat, x.tile = s.tile ∧ x.date = s.date ∧
      (∀ y ∈ cat, Wanted q y → y.tile = s.tile → y.date = s.date → y.baseline < x.baseline ∨ x.baseline = y.baseline ∧ y.generated ≤ x.generated) ∧
      ∀ y ∈ select q cat, y.tile = s.tile → y.date = s.date → y = x := by
  have hp : ((cat.filter (keep q)).insertionSort before).Pairwise before := List.pairwise_insertionSort _ _
  have hm : ∀ y ∈ cat, Wanted q y → y ∈ (cat.filter (keep q)).insertionSort before := by
    intro y h1 h2
    rw [List.mem_insertionSort, List.mem_filter, keep_iff]
    exact ⟨h1, h2⟩
  obtain ⟨x, h1, h2, h3⟩ := firsts_cover hp (hm s hs hw) (seen := []) (by simp)
  have hu : ∀ y ∈ firsts [] ((cat.filter (keep q)).insertionSort before), key y = key x → y = x := by
    intro y hy e
    by_contra hne
    have : Std.Symm fun a b : Scene => key a ≠ key b := ⟨fun a b hh => hh.symm⟩
    exact (firsts_pairwise [] _).forall hy h1 hne e
  unfold key at h2
  injection h2 with e1 e2
  refine ⟨x, mem_select.2 h1, e1, e2, ?_, ?_⟩
  · intro y hy hw' t d
    obtain ⟨z, g1, g2, g3⟩ := firsts_cover hp (hm y hy hw') (seen := []) (by simp)
    have : z = x := hu z g1 (by rw [g2]; unfold key; rw [t, d, e1, e2])
    rw [this] at g3
    exact g3
  · intro y hy t d
    exact hu y (mem_select.1 hy) (by unfold key; rw [t, d, e1, e2])

/-- C166: if no tile is sensed twice on a day, every acquisition that meets the criteria is selected in its latest processing. Missing: tiles that are sensed
twice on a day, see `c166_twice_violated`. -/
theorem c166_found_partial (q : Query) (cat : List Scene) (h : ∀ a ∈ cat, ∀ b ∈ cat, a.tile = b.tile → a.date = b.date → a.time = b.time ∧ a.sensor = b.sensor)
    (s : Scene) (hs : s ∈ cat) (hw : Wanted q s) :
    ∃ x ∈ select q cat, x.tile = s.tile ∧ x.date = s.date ∧ x.time = s.time ∧ x.sensor = s.sensor := by
  obtain ⟨x, h1, h2, h3, -, -⟩ := c166_latest q cat s hs hw
  have := h x ((c166_criteria q cat).1 x h1).1 s hs h2 h3
  exact ⟨x, h1, h2, h3, this.1, this.2⟩

/-- C166, violated: of two acquisitions of the same tile on the same day (successive orbits at high latitudes, or two satellites), at most one is
selected, whatever the catalogue is. -/
theorem c166_twice_violated (q : Query) (cat : List Scene) (a b : Scene) (ha : a ∈ cat) (wa : Wanted q a) (ht : a.tile = b.tile) (hd : a.date = b.date)
    (hne : a.time ≠ b.time ∨ a.sensor ≠ b.sensor) : ¬ (a ∈ select q cat ∧ b ∈ select q cat) := by
  rintro ⟨h1, h2⟩
  obtain ⟨x, -, -, -, -, hu⟩ := c166_latest q cat a ha wa
  have e1 := hu a h1 rfl rfl
  have e2 := hu b h2 ht.symm hd.symm
  rw [← e2] at e1
  rw [e1] at hne
  simp at hne

/-! ## Download -/

section

variable {files : Id → Nat}

/-- What holds in every state. -/
structure Inv (files : Id → Nat) (w : World) : Prop where
  full : ∀ s ∈ w.queue, w.dir s = some (files s, false)
  once : w.queue.Nodup
  bound : ∀ s, complete (w.dir s) ≤ files s

theorem set_other {w : World} {s x : Id} {d : Dir} (h : x ≠ s) : (w.set s d).dir x = w.dir x := if_neg h

theorem set_same {w : World} {s : Id} {d : Dir} : (w.set s d).dir s = d := if_pos rfl

/-- While a scene is copied, only its directory changes. -/
theorem copy_other (s : Id) (n : Nat) : ∀ (i : Nat) (w v : World), v ∈ copyFiles s w i n → v.queue = w.queue ∧ ∀ x, x ≠ s → v.dir x = w.dir x := by
  induction n with
  | zero => intro i w v h; simp [copyFiles] at h
  | succ n ih =>
    intro i w v h
    rw [copyFiles] at h
    simp only [List.mem_cons] at h
    rcases h with rfl | rfl | h
    · exact ⟨rfl, fun x hx => set_other hx⟩
    · exact ⟨rfl, fun x hx => set_other hx⟩
    · obtain ⟨h1, h2⟩ := ih _ _ v h
      exact ⟨h1, fun x hx => (h2 x hx).trans (set_other hx)⟩

theorem lastOf_mem (w : World) (l : List World) : lastOf w l = w ∨ lastOf w l ∈ l := by
  unfold lastOf
  cases l with
  | nil => exact .inl rfl
  | cons a l =>
    right
    rw [List.getLastD_eq_getLast?, List.getLast?_eq_some_getLast (List.cons_ne_nil a l)]
    exact List.getLast_mem _

theorem lastOf_cons (w a : World) (l : List World) : lastOf w (a :: l) = lastOf a l := by
  unfold lastOf
  rw [List.getLastD_cons]

/-- After the copy, all files are there. -/
theorem copy_last (s : Id) (n : Nat) : ∀ (i : Nat) (w : World), i + n = files s → complete (w.dir s) ≤ files s → (0 < n ∨ w.dir s = some (files s, false)) →
    (lastOf w (copyFiles s w i n)).dir s = some (files s, false) := by
  induction n with
  | zero =>
    intro i w h1 h2 h3
    rcases h3 with h3 | h3
    · omega
    · exact h3
  | succ n ih =>
    intro i w h1 h2 _
    rw [copyFiles, lastOf_cons, lastOf_cons]
    refine ih (i + 1) _ (by omega) ?_ ?_
    · rw [set_same]; simp only [complete, Option.map_some, Option.getD_some]; unfold complete at h2; omega
    · by_cases hn : 0 < n
      · exact .inl hn
      · right
        rw [set_same]
        congr 2
        omega

theorem copy_bound (s : Id) (n : Nat) : ∀ (i : Nat) (w v : World), i + n = files s → complete (w.dir s) ≤ files s → v ∈ copyFiles s w i n → complete (v.dir s) ≤ files s := by
  induction n with
  | zero => intro i w v _ _ h; simp [copyFiles] at h
  | succ n ih =>
    intro i w v h1 h2 h
    rw [copyFiles] at h
    simp only [List.mem_cons] at h
    have h2' := h2
    unfold complete at h2'
    rcases h with rfl | rfl | h
    · rw [set_same]; simp only [complete, Option.map_some, Option.getD_some]; omega
    · rw [set_same]; simp only [complete, Option.map_some, Option.getD_some]; omega
    · refine ih (i + 1) _ v (by omega) ?_ h
      rw [set_same]; simp only [complete, Option.map_some, Option.getD_some]; omega

theorem not_queued (hf : ∀ s, 0 < files s) {w : World} (hi : Inv files w) {s : Id} (hs : ¬ skip (w.dir s) = true) : s ∉ w.queue := by
  intro hq
  rw [hi.full s hq] at hs
  unfold skip at hs
  simp only [decide_eq_true_eq] at hs
  exact hs (hf s)

/-- The world after the scene has been copied, before it is queued. -/
theorem copied (hf : ∀ s, 0 < files s) {w : World} (hi : Inv files w) (s : Id) :
    (lastOf w (copyFiles s w 0 (files s))).dir s = some (files s, false) ∧ (lastOf w (copyFiles s w 0 (files s))).queue = w.queue ∧
      ∀ x, x ≠ s → (lastOf w (copyFiles s w 0 (files s))).dir x = w.dir x := by
  refine ⟨copy_last s (files s) 0 w (by omega) (hi.bound s) (.inl (hf s)), ?_⟩
  rcases lastOf_mem w (copyFiles s w 0 (files s)) with h | h
  · rw [h]; exact ⟨rfl, fun _ _ => rfl⟩
  · exact copy_other s (files s) 0 w _ h

theorem fetch_inv (hf : ∀ s, 0 < files s) {w : World} (hi : Inv files w) (s : Id) : ∀ v ∈ fetch files w s, Inv files v := by
  intro v hv
  unfold fetch at hv
  split at hv
  · simp at hv
  · rename_i hs
    have hq := not_queued hf hi hs
    simp only [List.mem_append, List.mem_singleton] at hv
    rcases hv with hv | rfl
    · obtain ⟨h1, h2⟩ := copy_other s (files s) 0 w v hv
      refine ⟨?_, ?_, ?_⟩
      · intro x hx
        rw [h1] at hx
        rw [h2 x (fun e => hq (e ▸ hx))]
        exact hi.full x hx
      · rw [h1]; exact hi.once
      · intro x
        by_cases e : x = s
        · rw [e]; exact copy_bound s (files s) 0 w v (by omega) (hi.bound s) hv
        · rw [h2 x e]; exact hi.bound x
    · obtain ⟨h1, h2, h3⟩ := copied hf hi s
      refine ⟨?_, ?_, ?_⟩
      · intro x hx
        show (lastOf w (copyFiles s w 0 (files s))).dir x = _
        have hx : x ∈ (lastOf w (copyFiles s w 0 (files s))).queue ++ [s] := hx
        rw [h2, List.mem_append, List.mem_singleton] at hx
        by_cases e : x = s
        · rw [e]; exact h1
        · rw [h3 x e]
          exact hi.full x (hx.resolve_right e)
      · show ((lastOf w (copyFiles s w 0 (files s))).queue ++ [s]).Nodup
        rw [h2]
        exact List.nodup_append.2 ⟨hi.once, by simp, by
          intro a ha b hb e
          rw [List.mem_singleton] at hb
          exact hq (by rw [← hb, ← e]; exact ha)⟩
      · intro x
        show complete ((lastOf w (copyFiles s w 0 (files s))).dir x) ≤ files x
        by_cases e : x = s
        · rw [e, h1]; simp [complete]
        · rw [h3 x e]; exact hi.bound x

theorem last_inv {w : World} (hi : Inv files w) {l : List World} (h : ∀ v ∈ l, Inv files v) : Inv files (lastOf w l) := by
  rcases lastOf_mem w l with e | e
  · rw [e]; exact hi
  · exact h _ e

theorem process_inv (hf : ∀ s, 0 < files s) (l : List Id) : ∀ {w : World}, Inv files w → ∀ v ∈ process files w l, Inv files v := by
  induction l with
  | nil => intro w _ v hv; simp [process] at hv
  | cons s l ih =>
    intro w hi v hv
    rw [process] at hv
    rcases List.mem_append.1 hv with hv | hv
    · exact fetch_inv hf hi s v hv
    · exact ih (last_inv hi (fetch_inv hf hi s)) v hv

theorem after_inv (hf : ∀ s, 0 < files s) {w v : World} (hi : Inv files w) (h : After files w v) : Inv files v := by
  induction h with
  | refl => exact hi
  | run l _ hm ih => exact process_inv hf l ih _ hm

theorem empty_inv : Inv files empty := ⟨by intro s hs; simp [empty] at hs, by simp [empty], by intro s; simp [empty, complete]⟩

/-- C167: after any number of runs, each for any scenes and interrupted at any point, every scene in the queue is complete in the pool, and no scene is in
the queue twice. -/
theorem c167_queue (hf : ∀ s, 0 < files s) (w : World) (h : After files empty w) : (∀ s ∈ w.queue, w.dir s = some (files s, false)) ∧ w.queue.Nodup :=
  have := after_inv hf empty_inv h
  ⟨this.full, this.once⟩

/-! ### Scenes that are skipped -/

theorem fetch_skipped {w : World} {s : Id} (h : skip (w.dir s) = true) (x : Id) : ∀ v ∈ fetch files w x, v.dir s = w.dir s ∧ (s ∈ v.queue ↔ s ∈ w.queue) := by
  intro v hv
  unfold fetch at hv
  split at hv
  · simp at hv
  · rename_i hs
    have hne : s ≠ x := fun e => hs (e ▸ h)
    simp only [List.mem_append, List.mem_singleton] at hv
    have hcopy : ∀ v, v = w ∨ v ∈ copyFiles x w 0 (files x) → v.dir s = w.dir s ∧ v.queue = w.queue := by
      rintro v (rfl | hv)
      · exact ⟨rfl, rfl⟩
      · have := copy_other x (files x) 0 w v hv
        exact ⟨this.2 s hne, this.1⟩
    rcases hv with hv | rfl
    · have := hcopy v (.inr hv)
      exact ⟨this.1, by rw [this.2]⟩
    · have := hcopy _ (lastOf_mem w (copyFiles x w 0 (files x)))
      refine ⟨this.1, ?_⟩
      show s ∈ (lastOf w (copyFiles x w 0 (files x))).queue ++ [x] ↔ _
      rw [this.2]
      simp [hne]

theorem process_skipped {s : Id} (l : List Id) : ∀ {w : World}, skip (w.dir s) = true → ∀ v ∈ process files w l, v.dir s = w.dir s ∧ (s ∈ v.queue ↔ s ∈ w.queue) := by
  induction l with
  | nil => intro w _ v hv; simp [process] at hv
  | cons x l ih =>
    intro w h v hv
    rw [process] at hv
    rcases List.mem_append.1 hv with hv | hv
    · exact fetch_skipped h x v hv
    · have h1 : (lastOf w (fetch files w x)).dir s = w.dir s ∧ (s ∈ (lastOf w (fetch files w x)).queue ↔ s ∈ w.queue) := by
        rcases lastOf_mem w (fetch files w x) with e | e
        · rw [e]; exact ⟨rfl, Iff.rfl⟩
        · exact fetch_skipped h x _ e
      have := ih (w := lastOf w (fetch files w x)) (by rw [h1.1]; exact h) v hv
      exact ⟨this.1.trans h1.1, this.2.trans h1.2⟩

theorem after_skipped {s : Id} {w v : World} (h : skip (w.dir s) = true) (ha : After files w v) : v.dir s = w.dir s ∧ (s ∈ v.queue ↔ s ∈ w.queue) := by
  induction ha with
  | refl => exact ⟨rfl, Iff.rfl⟩
  | run l _ hm ih =>
    have := process_skipped l (by rw [ih.1]; exact h) _ hm
    exact ⟨this.1.trans ih.1, this.2.trans ih.2⟩

/-- After a scene has been fetched, it is in the queue, and scenes in the queue stay there. -/
theorem fetch_queue (hf : ∀ s, 0 < files s) {w : World} (hi : Inv files w) (s : Id) :
    (skip (w.dir s) = false → s ∈ (lastOf w (fetch files w s)).queue) ∧ (∀ x ∈ w.queue, x ∈ (lastOf w (fetch files w s)).queue) ∧
      ∀ x, x ≠ s → (lastOf w (fetch files w s)).dir x = w.dir x := by
  unfold fetch
  by_cases h : skip (w.dir s) = true
  · rw [if_pos h]
    refine ⟨fun hh => ?_, fun x hx => hx, fun _ _ => rfl⟩
    rw [h] at hh; cases hh
  · rw [if_neg h]
    simp only
    have e : lastOf w (copyFiles s w 0 (files s) ++ [{ lastOf w (copyFiles s w 0 (files s)) with queue := (lastOf w (copyFiles s w 0 (files s))).queue ++ [s] }]) =
        { lastOf w (copyFiles s w 0 (files s)) with queue := (lastOf w (copyFiles s w 0 (files s))).queue ++ [s] } := by
      conv_lhs => unfold lastOf
      rw [List.getLastD_concat]
      rfl
    rw [e]
    obtain ⟨-, h2, h3⟩ := copied hf hi s
    refine ⟨fun _ => by simp, fun x hx => ?_, h3⟩
    show x ∈ (lastOf w (copyFiles s w 0 (files s))).queue ++ [s]
    rw [h2]
    exact List.mem_append_left _ hx

theorem finish_cons (w : World) (s : Id) (l : List Id) : finish files w (s :: l) = finish files (lastOf w (fetch files w s)) l := by
  unfold finish
  rw [process]
  generalize fetch files w s = m
  generalize process files (lastOf w m) l = r
  unfold lastOf
  cases r with
  | nil => simp
  | cons a r =>
    rw [List.getLastD_eq_getLast?, List.getLast?_append, List.getLastD_eq_getLast?]
    rw [List.getLast?_eq_some_getLast (List.cons_ne_nil a r)]
    rfl

theorem finish_queue (hf : ∀ s, 0 < files s) (l : List Id) : ∀ {w : World}, Inv files w → (∀ s ∈ l, skip (w.dir s) = true → s ∈ w.queue) →
    (∀ x ∈ w.queue, x ∈ (finish files w l).queue) ∧ ∀ s ∈ l, s ∈ (finish files w l).queue := by
  induction l with
  | nil => intro w _ _; exact ⟨fun x hx => hx, by simp⟩
  | cons s l ih =>
    intro w hi h
    rw [finish_cons]
    obtain ⟨f1, f2, f3⟩ := fetch_queue hf hi s
    have hs : s ∈ (lastOf w (fetch files w s)).queue := by
      by_cases hk : skip (w.dir s) = true
      · exact f2 s (h s List.mem_cons_self hk)
      · exact f1 (by simpa using hk)
    obtain ⟨g1, g2⟩ := ih (last_inv hi (fetch_inv hf hi s)) (by
      intro x hx hk
      by_cases e : x = s
      · rw [e]; exact hs
      · rw [f3 x e] at hk
        exact f2 x (h x (List.mem_cons_of_mem _ hx) hk))
    refine ⟨fun x hx => g1 x (f2 x hx), ?_⟩
    intro x hx
    rcases List.mem_cons.1 hx with rfl | hx
    · exact g1 _ hs
    · exact g2 x hx

/-- C168: after a run without interruption, all requested scenes are in the pool and in the queue, if every requested scene that seemed to be in the pool was in
the queue before: for example if there were only complete runs, or if interruptions have left an unfinished file. Missing: interruptions at other points,
see `c168_queue_violated` and `c168_files_violated`. -/
theorem c168_all_partial (hf : ∀ s, 0 < files s) (w : World) (h : After files empty w) (l : List Id)
    (hl : ∀ s ∈ l, w.dir s = none ∨ (∃ k, w.dir s = some (k, true)) ∨ s ∈ w.queue) :
    ∀ s ∈ l, s ∈ (finish files w l).queue ∧ (finish files w l).dir s = some (files s, false) := by
  have hi := after_inv hf empty_inv h
  have hq := (finish_queue hf l hi (by
    intro s hs hk
    rcases hl s hs with e | ⟨k, e⟩ | e
    · rw [e] at hk; simp [skip] at hk
    · rw [e] at hk; simp [skip] at hk
    · exact e)).2
  have hi' : Inv files (finish files w l) := last_inv hi (process_inv hf l hi)
  exact fun s hs => ⟨hq s hs, hi'.full s (hq s hs)⟩

/-- C168: a first run without interruption, and each later one. -/
theorem c168_first (hf : ∀ s, 0 < files s) (l : List Id) : ∀ s ∈ l, s ∈ (finish files empty l).queue ∧ (finish files empty l).dir s = some (files s, false) :=
  c168_all_partial hf empty .refl l fun _ _ => .inl rfl

/-- C168, violated: a run that is interrupted between the download of a scene and its entry in the queue loses the scene: it is complete in the pool, but no later
run, with or without interruptions, ever puts it into the queue. -/
theorem c168_queue_violated (hf : ∀ s, 0 < files s) (s : Id) :
    ∃ w ∈ process files empty [s], w.dir s = some (files s, false) ∧ ∀ v, After files w v → s ∉ v.queue := by
  obtain ⟨h1, h2, -⟩ := copied hf (empty_inv (files := files)) s
  have hm : lastOf empty (copyFiles s empty 0 (files s)) ∈ copyFiles s empty 0 (files s) := by
    rcases lastOf_mem empty (copyFiles s empty 0 (files s)) with e | e
    · rw [e] at h1; simp [empty] at h1
    · exact e
  refine ⟨lastOf empty (copyFiles s empty 0 (files s)), ?_, h1, ?_⟩
  · rw [process]
    refine List.mem_append_left _ ?_
    unfold fetch
    rw [if_neg (by simp [empty, skip])]
    exact List.mem_append_left _ hm
  · intro v hv
    have := after_skipped (s := s) (by rw [h1]; simp [skip, hf s]) hv
    rw [this.2, h2]
    simp [empty]

/-- C168, violated: a run that is interrupted after the first file of a scene of two or more files leaves a scene that no later run completes or queues. -/
theorem c168_files_violated (s : Id) (h2 : 2 ≤ files s) :
    ∃ w ∈ process files empty [s], ∀ v, After files w v → complete (v.dir s) = 1 ∧ s ∉ v.queue := by
  obtain ⟨n, hn⟩ : ∃ n, files s = n + 1 := ⟨files s - 1, by omega⟩
  refine ⟨empty.set s (some (1, false)), ?_, ?_⟩
  · rw [process]
    refine List.mem_append_left _ ?_
    unfold fetch
    rw [if_neg (by simp [empty, skip]), hn, copyFiles]
    simp [empty, complete]
  · intro v hv
    have := after_skipped (s := s) (w := empty.set s (some (1, false))) (by rw [set_same]; rfl) hv
    rw [this.1, this.2, set_same]
    exact ⟨rfl, by simp [empty, World.set]⟩

end

end Verif.Csd
