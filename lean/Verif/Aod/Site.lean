import Mathlib.Data.List.Forall2
import Mathlib.Tactic.Linarith
import Mathlib.Tactic.NormNum
import Mathlib.Tactic.Ring
import Verif.Aod.Model
import Verif.Aod.Spec
import Verif.Libc.Lemmas

/-! # External AOD (C221) -/

namespace Verif.Aod

open Verif.Aod.Spec
open Verif.Str (Out)

theorem word_sep {w : List Char} (h : Word w) : ∀ c ∈ w, decide (c = ' ') = false := by
  intro c hc
  rw [decide_eq_false_iff_not]
  rintro rfl
  exact h.2.1 hc

theorem tok (w rest : List Char) (h : Word w) :
    Libc.strtok (fun c => decide (c = ' ')) (w ++ ' ' :: rest) = some (w, rest) :=
  Libc.strtok_cons _ [] w rest (by simp) (word_sep h) h.1 ' ' (by simp)

theorem site_line (rd : ℚ → ℚ) (line : List Char) (s : Site) (h : LineOf rd line s) :
    ∃ a b c, site rd (line ++ ['\n']) = some (s.x, s.y, [a, b, c]) ∧
      (Libc.atof rd a, Libc.atof rd b, Libc.atof rd c) = s.co := by
  obtain ⟨x, y, a, b, c, ⟨hx, hy, ha, hb, hc⟩, rfl, ex, ey, e1, e2, e3⟩ := h
  refine ⟨a, b, c ++ ['\n'], ?_, by rw [e1, e2, e3]⟩
  unfold site
  simp only [List.append_assoc, List.cons_append]
  rw [tok x _ hx]
  simp only
  rw [tok y _ hy]
  simp only
  rw [tok a _ ha]
  simp only
  rw [tok b _ hb]
  simp only
  have : Libc.strtok (fun c => decide (c = ' ')) (c ++ ['\n']) = some (c ++ ['\n'], []) := by
    refine Libc.strtok_end _ [] (c ++ ['\n']) (by simp) ?_ (by simp)
    intro d hd
    rcases List.mem_append.1 hd with h | h
    · exact word_sep hc d h
    · rw [List.mem_singleton] at h; rw [h]; rfl
  rw [this]
  simp only
  rw [ex, ey]

theorem step_line (rd : ℚ → ℚ) (cx cy : ℚ) (st : Near) (line : List Char) (s : Site) (h : LineOf rd line s) :
    nearStep rd cx cy st (line ++ ['\n']) = .ok (if dist2 cx cy s < st.d2 then ⟨dist2 cx cy s, s.co⟩ else st) := by
  obtain ⟨a, b, c, e, eco⟩ := site_line rd line s h
  unfold nearStep
  rw [e]
  have : (cx - s.x) * (cx - s.x) + (cy - s.y) * (cy - s.y) = dist2 cx cy s := by unfold dist2; ring
  simp only [this]
  split
  · rw [eco]
  · rfl

/-- All sites that were read: the result is the start or the first of the nearest ones. -/
theorem loop_lines (rd : ℚ → ℚ) (cx cy : ℚ) (ls : List (List Char)) (ss : List Site) (h : List.Forall₂ (LineOf rd) ls ss) (st : Near) :
    ∃ r, nearLoop rd cx cy (ls.map fun l => l ++ ['\n']) st = .ok r ∧
      ((r = st ∧ ∀ s ∈ ss, st.d2 ≤ dist2 cx cy s) ∨
        ∃ (i : Nat) (s : Site), ss[i]? = some s ∧ r = ⟨dist2 cx cy s, s.co⟩ ∧ dist2 cx cy s < st.d2 ∧
          ∀ (j : Nat) (t : Site), ss[j]? = some t → dist2 cx cy s ≤ dist2 cx cy t ∧ (j < i → dist2 cx cy s < dist2 cx cy t)) := by
  induction h generalizing st with
  | nil => exact ⟨st, rfl, .inl ⟨rfl, by simp⟩⟩
  | @cons l s ls ss hl _ ih =>
    rw [List.map_cons, nearLoop, step_line rd cx cy st l s hl]
    simp only [Out.bind]
    by_cases hd : dist2 cx cy s < st.d2
    · rw [if_pos hd]
      obtain ⟨r, h1, h2⟩ := ih ⟨dist2 cx cy s, s.co⟩
      refine ⟨r, h1, .inr ?_⟩
      rcases h2 with ⟨rfl, h3⟩ | ⟨i, t, hi, rfl, h4, h5⟩
      · refine ⟨0, s, rfl, rfl, hd, fun j t hj => ⟨?_, fun h => absurd h (Nat.not_lt_zero _)⟩⟩
        cases j with
        | zero => rw [List.getElem?_cons_zero] at hj; rw [Option.some.inj hj]
        | succ j => rw [List.getElem?_cons_succ] at hj; exact h3 t (List.mem_of_getElem? hj)
      · refine ⟨i + 1, t, by rw [List.getElem?_cons_succ]; exact hi, rfl, h4.trans hd, fun j u hj => ?_⟩
        cases j with
        | zero =>
          rw [List.getElem?_cons_zero] at hj; rw [← Option.some.inj hj]; exact ⟨h4.le, fun _ => h4⟩
        | succ j =>
          rw [List.getElem?_cons_succ] at hj
          exact ⟨(h5 j u hj).1, fun h => (h5 j u hj).2 (by omega)⟩
    · rw [if_neg hd]
      obtain ⟨r, h1, h2⟩ := ih st
      refine ⟨r, h1, ?_⟩
      rcases h2 with ⟨rfl, h3⟩ | ⟨i, t, hi, rfl, h4, h5⟩
      · left
        refine ⟨rfl, fun t ht => ?_⟩
        rcases List.mem_cons.1 ht with rfl | ht
        · exact not_lt.1 hd
        · exact h3 t ht
      · right
        refine ⟨i + 1, t, by rw [List.getElem?_cons_succ]; exact hi, rfl, h4, fun j u hj => ?_⟩
        cases j with
        | zero =>
          rw [List.getElem?_cons_zero] at hj; rw [← Option.some.inj hj]
          have := h4.trans_le (not_lt.1 hd)
          exact ⟨this.le, fun _ => this⟩
        | succ j =>
          rw [List.getElem?_cons_succ] at hj
          exact ⟨(h5 j u hj).1, fun h => (h5 j u hj).2 (by omega)⟩

/-- C221 (for files in which every line has five numbers, and distances in degrees): the external AOD is that of the nearest
site in the file of the day, the first one if there are several; without a directory or with an empty file it is
the global one. Missing: distances on the sphere, and files with other lines. -/
theorem c221_nearest_partial (rd : ℚ → ℚ) (cx cy : ℚ) (ls : List (List Char)) (ss : List Site) (h : List.Forall₂ (LineOf rd) ls ss)
    (hlen : ∀ l ∈ ls, l.length ≤ 1022 ∧ '\n' ∉ l) (hd : ∀ s ∈ ss, dist2 cx cy s ≤ 360 ^ 2 + 180 ^ 2) :
    aodFile rd cx cy none = .ok (-2.8665, -1.4787, -0.0486) ∧
    (ss = [] → aodFile rd cx cy (some (ls.flatMap fun l => l ++ ['\n'])) = .ok (-2.8665, -1.4787, -0.0486)) ∧
    (ss ≠ [] → ∃ (i : Nat) (s : Site), ss[i]? = some s ∧ aodFile rd cx cy (some (ls.flatMap fun l => l ++ ['\n'])) = .ok s.co ∧
      ∀ (j : Nat) (t : Site), ss[j]? = some t → dist2 cx cy s ≤ dist2 cx cy t ∧ (j < i → dist2 cx cy s < dist2 cx cy t)) := by
  refine ⟨rfl, fun hs => ?_, fun hs => ?_⟩
  · subst hs
    cases h
    rfl
  · obtain ⟨r, h1, h2⟩ := loop_lines rd cx cy ls ss h start
    have e : aodFile rd cx cy (some (ls.flatMap fun l => l ++ ['\n'])) = .ok r.co := by
      unfold aodFile
      simp only
      rw [Libc.fgetsAll_lines 1024 ls (fun l hl => ⟨(hlen l hl).2, by have := (hlen l hl).1; omega⟩), h1]
      rfl
    rcases h2 with ⟨rfl, h3⟩ | ⟨i, s, hi, rfl, -, h5⟩
    · obtain ⟨s, hm⟩ := List.exists_mem_of_ne_nil _ hs
      exfalso
      have a := h3 s hm
      have b := hd s hm
      unfold start at a
      norm_num at a b
      linarith
    · exact ⟨i, s, hi, e, h5⟩

/-- C221, violated: distances are differences of degrees, so a site on the other side of the antimeridian is not the
nearest one: at every latitude, a site two degrees to the west is taken rather than one that is one degree to the east
across the antimeridian. -/
theorem c221_antimeridian_violated (rd : ℚ → ℚ) (cx cy : ℚ) (l1 l2 : List Char) (east west : Site)
    (h1 : LineOf rd l1 east) (h2 : LineOf rd l2 west) (n1 : l1.length ≤ 1022 ∧ '\n' ∉ l1) (n2 : l2.length ≤ 1022 ∧ '\n' ∉ l2)
    (he : east.x = cx + 1 - 360 ∧ east.y = cy) (hw : west.x = cx - 2 ∧ west.y = cy) :
    aodFile rd cx cy (some (l1 ++ ['\n'] ++ (l2 ++ ['\n']))) = .ok west.co := by
  have d1 : dist2 cx cy east = 359 ^ 2 := by unfold dist2; rw [he.1, he.2]; ring
  have d2 : dist2 cx cy west = 2 ^ 2 := by unfold dist2; rw [hw.1, hw.2]; ring
  have key := (c221_nearest_partial rd cx cy [l1, l2] [east, west] (.cons h1 (.cons h2 .nil))
    (by intro l hl; simp only [List.mem_cons, List.not_mem_nil, or_false] at hl; rcases hl with rfl | rfl <;> assumption)
    (by intro s hs; simp only [List.mem_cons, List.not_mem_nil, or_false] at hs; rcases hs with rfl | rfl
        · rw [d1]; norm_num
        · rw [d2]; norm_num)).2.2 (by simp)
  obtain ⟨i, s, hi, e, h⟩ := key
  have : s = west := by
    match i, hi with
    | 0, hi =>
      rw [List.getElem?_cons_zero] at hi
      have := (h 1 west rfl).1
      rw [← Option.some.inj hi, d1, d2] at this
      norm_num at this
    | 1, hi => exact (Option.some.inj hi).symm
    | n + 2, hi => simp at hi
  rw [this] at e
  simpa using e

/-- C221, violated: an empty line anywhere in the file, e.g. at its end, is undefined behaviour. -/
theorem c221_empty_line_violated (rd : ℚ → ℚ) (cx cy : ℚ) (ls : List (List Char)) (ss : List Site) (h : List.Forall₂ (LineOf rd) ls ss)
    (hlen : ∀ l ∈ ls, l.length ≤ 1022 ∧ '\n' ∉ l) :
    aodFile rd cx cy (some ((ls ++ [[]]).flatMap fun l => l ++ ['\n'])) = .ub := by
  unfold aodFile
  simp only
  rw [Libc.fgetsAll_lines 1024 (ls ++ [[]]) (by
    intro l hl
    rcases List.mem_append.1 hl with hl | hl
    · exact ⟨(hlen l hl).2, by have := (hlen l hl).1; omega⟩
    · rw [List.mem_singleton] at hl; rw [hl]; exact ⟨by simp, by simp⟩)]
  suffices H : ∀ st, nearLoop rd cx cy ((ls ++ [[]]).map fun l => l ++ ['\n']) st = .ub by rw [H]; rfl
  clear hlen
  induction h with
  | nil => intro st; rfl
  | @cons l s ls ss hl _ ih =>
    intro st
    rw [List.cons_append, List.map_cons, nearLoop, step_line rd cx cy st l s hl]
    exact ih _

/-- C221: without estimation, or if there is no valid target, the AOD of the scene is the external one in every band and there is no map;
otherwise both are those of the targets. The external AOD is `exp (a + b * log wvl + c * log wvl ^ 2)`. -/
theorem c221_fallback (wvl : Nat → ℝ) (hw : ∀ b, 0 < wvl b) (co : ℝ × ℝ × ℝ) (map : Nat → (Nat → Option ℝ) × ℝ) (nwat nveg b : Nat) :
    compile false (aodLut wvl co) map nwat nveg b = (none, Real.exp (co.1 + (co.2.1 + co.2.2 * Real.log (wvl b)) * Real.log (wvl b))) ∧
    compile true (aodLut wvl co) map 0 0 b = (none, Real.exp (co.1 + (co.2.1 + co.2.2 * Real.log (wvl b)) * Real.log (wvl b))) ∧
    (0 < nwat ∨ 0 < nveg → compile true (aodLut wvl co) map nwat nveg b = (some (map b).1, (map b).2)) := by
  have e : aodLut wvl co b = Real.exp (co.1 + (co.2.1 + co.2.2 * Real.log (wvl b)) * Real.log (wvl b)) := by
    unfold aodLut
    rw [Real.rpow_def_of_pos (hw b), ← Real.exp_add]
    congr 1; ring
  refine ⟨?_, ?_, fun h => ?_⟩
  · unfold compile; rw [← e]; rfl
  · unfold compile; rw [← e]; rfl
  · unfold compile
    rw [if_neg (by simp), if_pos (by omega)]

end Verif.Aod
