import Mathlib.Tactic.Linarith
import Verif.Find.Props
import Verif.Libc.Lemmas
import Verif.Fetch.Model

namespace Verif.Fetch

open Verif.Str (Out)

theorem writes_open (bs : List Text) (c : Text) :
    bs.foldl writeBlock (true, some c) = (true, some (c ++ bs.flatten)) := by
  induction bs generalizing c with
  | nil => simp
  | cons b bs ih =>
    rw [List.foldl_cons]
    show bs.foldl writeBlock (true, some (c ++ b)) = _
    rw [ih]; simp

theorem writes (bs : List Text) (file : Option Text) :
    (bs.foldl writeBlock (false, file)).2 = if bs = [] then file else some bs.flatten := by
  cases bs with
  | nil => simp
  | cons b bs =>
    rw [if_neg (by simp), List.foldl_cons]
    show (bs.foldl writeBlock (true, some ([] ++ b))).2 = _
    rw [writes_open]; simp

theorem fetch_stop (server : Nat → Transfer) (tries n : Nat) (file : Option Text)
    (h : ¬ (tries < 10 ∧ file = none)) : fetch server tries n file = (file, n) := by
  rw [fetch, dif_neg h]

theorem fetch_step (server : Nat → Transfer) (tries n : Nat) (h : tries < 10) :
    fetch server tries n none = fetch server ((if (server n).code = 78 then 99 else tries) + 1) (n + 1)
      (if (server n).blocks = [] then none else some (server n).blocks.flatten) := by
  rw [fetch, dif_pos ⟨h, rfl⟩]
  show fetch server _ (n + 1) ((server n).blocks.foldl writeBlock (false, none)).2 = _
  rw [writes]; rfl

/-! ## C301: downloaded files are complete -/

/-- Successive runs of the program with a file: in each one the server may behave in another way. -/
def runs (servers : List (Nat → Transfer)) (file : Option Text) : Option Text :=
  servers.foldl (fun f s => (fetch s 0 0 f).1) file

theorem fetch_complete (server : Nat → Transfer) (c : Text)
    (h : ∀ n, (server n).blocks ≠ [] → (server n).blocks.flatten = c) (tries n : Nat) (file : Option Text)
    (hf : file = none ∨ file = some c) :
    (fetch server tries n file).1 = none ∨ (fetch server tries n file).1 = some c := by
  induction hk : 10 - tries using Nat.strong_induction_on generalizing tries n file with
  | _ k ih =>
    by_cases hs : tries < 10 ∧ file = none
    · obtain ⟨h1, rfl⟩ := hs
      rw [fetch_step server tries n h1]
      refine ih (10 - ((if (server n).code = 78 then 99 else tries) + 1)) ?_ _ _ _ ?_ rfl
      · split <;> omega
      · by_cases hb : (server n).blocks = []
        · rw [if_pos hb]; exact Or.inl rfl
        · rw [if_neg hb, h n hb]; exact Or.inr rfl
    · rw [fetch_stop server tries n file hs]; exact hf

/-- C301, part: if no transfer that delivers data is ever interrupted, then after any number of runs, the local file is missing
or holds all of the remote one. Missing: interrupted transfers (`c301_interrupted_violated`). -/
theorem c301_complete_partial (servers : List (Nat → Transfer)) (content : Text)
    (h : ∀ s ∈ servers, ∀ n, (s n).blocks ≠ [] → (s n).blocks.flatten = content) :
    runs servers none = none ∨ runs servers none = some content := by
  have key : ∀ (ss : List (Nat → Transfer)) (f : Option Text), (∀ s ∈ ss, s ∈ servers) →
      (f = none ∨ f = some content) → runs ss f = none ∨ runs ss f = some content := by
    intro ss
    induction ss with
    | nil => intro f _ hf; exact hf
    | cons s ss ih =>
      intro f hs hf
      exact ih _ (fun x hx => hs x (List.mem_cons_of_mem _ hx))
        (fetch_complete s content (h s (hs s List.mem_cons_self)) 0 0 f hf)
  exact key servers none (fun _ h => h) (Or.inl rfl)

theorem runs_some (servers : List (Nat → Transfer)) (c : Text) : runs servers (some c) = some c := by
  induction servers with
  | nil => rfl
  | cons s ss ih =>
    show runs ss (fetch s 0 0 (some c)).1 = _
    rw [fetch_stop s 0 0 (some c) (by simp)]
    exact ih

theorem first_kept (server : Nat → Transfer) (later : List (Nat → Transfer)) (hb : (server 0).blocks ≠ []) :
    fetch server 0 0 none = (some (server 0).blocks.flatten, 1) ∧
    runs (server :: later) none = some (server 0).blocks.flatten := by
  have : fetch server 0 0 none = (some (server 0).blocks.flatten, 1) := by
    rw [fetch_step server 0 0 (by omega), if_neg hb, fetch_stop _ _ _ _ (by simp)]
  refine ⟨this, ?_⟩
  show runs later (fetch server 0 0 none).1 = _
  rw [this, runs_some]

/-- C301, violated: if the first transfer is interrupted (it returns an error) after some of the blocks, these are taken for the file:
there is no further transfer in this run, and none in any later run, even if the server would deliver the whole file from the second
transfer on. The error is printed only. -/
theorem c301_interrupted_violated (server : Nat → Transfer) (later : List (Nat → Transfer)) (content : Text)
    (hb : (server 0).blocks ≠ []) (_hc : (server 0).code ≠ 0) (hi : (server 0).blocks.flatten ≠ content)
    (_hok : ∀ n, 0 < n → (server n).blocks.flatten = content ∧ (server n).code = 0)
    (_hlater : ∀ s ∈ later, ∀ n, (s n).blocks.flatten = content ∧ (s n).code = 0) :
    (fetch server 0 0 none).2 = 1 ∧ runs (server :: later) none ≠ none ∧
    runs (server :: later) none ≠ some content := by
  obtain ⟨h1, h2⟩ := first_kept server later hb
  rw [h1, h2]
  exact ⟨rfl, by simp, fun e => hi (Option.some.inj e)⟩

/-- C301, violated: a program killed in a transfer leaves the blocks received so far, and all later runs keep them as the file. -/
theorem c301_killed_violated (t : Transfer) (k : Nat) (later : List (Nat → Transfer)) (hk : 0 < k) (hb : t.blocks ≠ []) :
    runs later (killed t k none) = some (t.blocks.take k).flatten := by
  unfold killed
  rw [writes, if_neg (by
    intro e
    rcases List.take_eq_nil_iff.1 e with e | e
    · omega
    · exact hb e), runs_some]

/-- The hypotheses are met. -/
example : runs [fun n => if n = 0 then ⟨[['a'], ['b']], 18⟩ else ⟨[['a'], ['b', 'c']], 0⟩,
    fun _ => ⟨[['a'], ['b', 'c']], 0⟩] none ≠ some ['a', 'b', 'c'] :=
  (c301_interrupted_violated (fun n => if n = 0 then ⟨[['a'], ['b']], 18⟩ else ⟨[['a'], ['b', 'c']], 0⟩)
    [fun _ => ⟨[['a'], ['b', 'c']], 0⟩] ['a', 'b', 'c'] (by simp) (by simp) (by simp)
    (fun n hn => by rw [if_neg (by omega)]; exact ⟨rfl, rfl⟩)
    (fun s hs n => by rw [List.mem_singleton.1 hs]; exact ⟨rfl, rfl⟩)).2.2

example : runs [fun _ => ⟨[], 28⟩, fun _ => ⟨[['a'], ['b', 'c']], 0⟩] none = some ['a', 'b', 'c'] := by
  have h1 : ∀ tries n, (fetch (fun _ => ⟨[], 28⟩) tries n none).1 = none := by
    intro tries n
    have := fetch_complete (fun _ => ⟨[], 28⟩) [] (fun n h => absurd rfl h) tries n none (Or.inl rfl)
    induction hk : 10 - tries using Nat.strong_induction_on generalizing tries n with
    | _ k ih =>
      by_cases ht : tries < 10
      · rw [fetch_step _ tries n ht]
        exact ih (10 - (tries + 1)) (by omega) (tries + 1) (n + 1)
          (fetch_complete (fun _ => ⟨[], 28⟩) [] (fun n h => absurd rfl h) _ _ none (Or.inl rfl)) rfl
      · rw [fetch_stop _ _ _ _ (by simp [ht])]
  show runs [fun _ => ⟨[['a'], ['b', 'c']], 0⟩] (fetch (fun _ => ⟨[], 28⟩) 0 0 none).1 = _
  rw [h1]
  exact (first_kept (fun _ => ⟨[['a'], ['b', 'c']], 0⟩) [] (by simp)).2

/-! ## C302: attempts -/

/-- C302: a file that is there is not downloaded again, and stays as it is. -/
theorem c302_kept (server : Nat → Transfer) (outage : Bool) (c : Text) :
    fetchMeta server outage (some c) = (some c, 0) := by
  unfold fetchMeta
  exact fetch_stop _ _ _ _ (by simp)

theorem fetch_bound (server : Nat → Transfer) (tries n : Nat) (file : Option Text) :
    (fetch server tries n file).2 ≤ n + (10 - tries) ∧ n ≤ (fetch server tries n file).2 := by
  induction hk : 10 - tries using Nat.strong_induction_on generalizing tries n file with
  | _ k ih =>
    by_cases hs : tries < 10 ∧ file = none
    · obtain ⟨h1, rfl⟩ := hs
      rw [fetch_step server tries n h1]
      have := ih (10 - ((if (server n).code = 78 then 99 else tries) + 1)) (by split <;> omega)
        ((if (server n).code = 78 then 99 else tries) + 1) (n + 1)
        (if (server n).blocks = [] then none else some (server n).blocks.flatten) rfl
      constructor
      · refine le_trans this.1 ?_
        split <;> omega
      · omega
    · rw [fetch_stop server tries n file hs]; dsimp only; omega

/-- C302: there are at most ten transfers of a file in a run, and none for a day on which the satellite had an outage. -/
theorem c302_tries (server : Nat → Transfer) (outage : Bool) (file : Option Text) :
    (fetchMeta server outage file).2 ≤ if outage then 0 else 10 := by
  unfold fetchMeta
  have := (fetch_bound server (if outage then 99 else 0) 0 file).1
  cases outage <;> simpa using this

theorem fetch_skip (server : Nat → Transfer) (k : Nat) (n tries : Nat) (hk : tries + k ≤ 10)
    (h : ∀ i, i < k → (server (n + i)).blocks = [] ∧ (server (n + i)).code ≠ 78) :
    fetch server tries n none = fetch server (tries + k) (n + k) none := by
  induction k generalizing n tries with
  | zero => rfl
  | succ k ih =>
    have h0 := h 0 (by omega)
    rw [Nat.add_zero] at h0
    rw [fetch_step server tries n (by omega), if_neg h0.2, if_pos h0.1,
      ih (n + 1) (tries + 1) (by omega) (fun i hi => by
        have := h (i + 1) (by omega)
        rw [show n + 1 + i = n + (i + 1) by omega]
        exact this),
      show tries + 1 + k = tries + (k + 1) by omega, show n + 1 + k = n + (k + 1) by omega]

/-- C302: if up to nine transfers deliver nothing (and the server does not say that there is no such file), and the next one delivers
the file, then the file is there after this transfer, the last one. -/
theorem c302_retry (server : Nat → Transfer) (k : Nat) (hk : k < 10)
    (h : ∀ i, i < k → (server i).blocks = [] ∧ (server i).code ≠ 78) (hb : (server k).blocks ≠ []) :
    fetchMeta server false none = (some (server k).blocks.flatten, k + 1) := by
  unfold fetchMeta
  rw [if_neg (by simp), fetch_skip server k 0 0 (by omega) (fun i hi => by rw [Nat.zero_add]; exact h i hi),
    Nat.zero_add, fetch_step server k k hk, if_neg hb, fetch_stop _ _ _ _ (by simp)]

/-- C302: if the server says that there is no such file (code 78), it is not asked again. -/
theorem c302_gone (server : Nat → Transfer) (k : Nat) (hk : k < 10)
    (h : ∀ i, i < k → (server i).blocks = [] ∧ (server i).code ≠ 78)
    (hb : (server k).blocks = []) (hc : (server k).code = 78) :
    fetchMeta server false none = (none, k + 1) := by
  unfold fetchMeta
  rw [if_neg (by simp), fetch_skip server k 0 0 (by omega) (fun i hi => by rw [Nat.zero_add]; exact h i hi),
    Nat.zero_add, fetch_step server k k hk, if_pos hb, if_pos hc, fetch_stop _ _ _ _ (by simp)]

/-- C302: if ten transfers deliver nothing, the run goes on without the file. -/
theorem c302_never (server : Nat → Transfer)
    (h : ∀ i, i < 10 → (server i).blocks = [] ∧ (server i).code ≠ 78) :
    fetchMeta server false none = (none, 10) := by
  unfold fetchMeta
  rw [if_neg (by simp), fetch_skip server 10 0 0 (by omega) (fun i hi => by rw [Nat.zero_add]; exact h i hi)]
  exact fetch_stop _ _ _ _ (by simp)

/-- The hypotheses are met: two failures, then the file. -/
example : fetchMeta (fun n => if n < 2 then ⟨[], 28⟩ else ⟨[['x']], 0⟩) false none = (some ['x'], 3) :=
  c302_retry _ 2 (by omega) (fun i hi => by simp [hi]) (by simp)

/-! ## C303: granules -/

theorem overwrite_ok {src rep : Text} {off n : Nat} (h1 : n ≤ rep.length) (h2 : off + n ≤ src.length)
    (hs : Verif.Str.nul ∉ src) :
    Verif.Str.overwritePart src off rep n = .ok (src.take off ++ rep.take n ++ src.drop (off + n)) := by
  have : Verif.Str.cstr src = src := by
    unfold Verif.Str.cstr
    rw [List.takeWhile_eq_self_iff]
    intro c hc
    simp only [decide_eq_true_eq]
    exact fun e => hs (e ▸ hc)
  unfold Verif.Str.overwritePart
  rw [this, if_neg (by omega), if_neg (by omega)]

/-- C303: the file of a granule starts with the three letters of the sensor, "05_L2" and characters 6 to 19 of the name
in the geometa table (a point, the date and the time); the day of the year is characters 12 to 14 of that name. -/
theorem c303_pattern (a b c : Char) (head date time rest : Text) (hs : Verif.Str.nul ∉ [a, b, c])
    (hh : head.length = 5) (hd : date.length = 6) (ht : time.length = 8) :
    pattern [a, b, c] (head ++ date ++ time ++ rest) =
      .ok ([a, b, c] ++ "05_L2".toList ++ date ++ time) ∧
    dayOf ([a, b, c] ++ "05_L2".toList ++ date ++ time) = .ok (time.take 3) := by
  have hdrop : (head ++ date ++ time ++ rest).drop 5 = date ++ time ++ rest := by
    rw [List.append_assoc, List.append_assoc, List.drop_left' hh, List.append_assoc]
  have htake : (date ++ time ++ rest).take 14 = date ++ time := by
    rw [List.take_left' (by rw [List.length_append]; omega)]
  constructor
  · unfold pattern
    rw [overwrite_ok (by simp) (by simp) (by decide)]
    dsimp only [Out.bind]
    rw [overwrite_ok (by simp) (by simp) (by
      intro h
      simp only [String.toList, List.take_zero, List.nil_append, List.mem_append] at h
      rcases h with h | h
      · exact hs (by simpa using h)
      · revert h; decide)]
    dsimp only [Out.bind]
    rw [hdrop, overwrite_ok (by rw [List.length_append, List.length_append]; omega) (by simp) (by
      intro h
      simp only [List.mem_append] at h
      rcases h with (h | h) | h
      · have := List.mem_of_mem_take h
        simp only [List.take_zero, List.nil_append, List.mem_append] at this
        rcases this with h | h
        · exact hs (by simpa using h)
        · revert h; decide
      · revert h; decide
      · have := List.mem_of_mem_drop h
        simp only [List.take_zero, List.nil_append, List.mem_append] at this
        rcases this with h | h
        · exact hs (by simpa using h)
        · revert h; decide)]
    dsimp only [Out.bind]
    rw [htake]
    congr 1
    have e : ∀ (p q r : Text), p.length = 8 → q.length = 14 → (p ++ q ++ r).take 22 = p ++ q := by
      intro p q r hp hq
      exact List.take_left' (by rw [List.length_append]; omega)
    rw [e _ _ _ (by simp) (by rw [List.length_append]; omega)]
    simp
  · unfold dayOf
    have : ([a, b, c] ++ "05_L2".toList ++ date ++ time).drop 14 = time :=
      List.drop_left' (by simp [hd])
    rw [this, overwrite_ok (by omega) (by simp) (by decide)]
    simp

example : pattern "MYD".toList "MOD03.A2020017.1355.061.hdf".toList = .ok "MYD05_L2.A2020017.1355".toList ∧
    dayOf "MYD05_L2.A2020017.1355".toList = .ok "017".toList := by decide +kernel

theorem infix_line {p l : Text} (hp : '\n' ∉ p) : p <:+: l ++ ['\n'] ↔ p <:+: l := by
  constructor
  · rintro ⟨s, t, h⟩
    rcases List.eq_nil_or_concat t with rfl | ⟨t', x, rfl⟩
    · rcases List.eq_nil_or_concat p with rfl | ⟨p', x, rfl⟩
      · exact List.nil_infix
      · rw [List.append_nil, List.concat_eq_append, ← List.append_assoc] at h
        have := (List.append_inj' h rfl).2
        simp only [List.cons.injEq, and_true] at this
        exact absurd (by simp [this]) hp
    · rw [List.concat_eq_append, ← List.append_assoc] at h
      exact ⟨s, t', (List.append_inj' h rfl).1⟩
  · rintro ⟨s, t, h⟩
    exact ⟨s, t ++ ['\n'], by rw [← h]; simp⟩

/-- One line of the listing. -/
def look (pat : Text) (acc : Out (Option Text)) (line : Text) : Out (Option Text) := acc.bind fun found =>
    if (Verif.Str.strstr line pat).isSome then
      match Libc.strtok (· = ',') line with
      | none => .ub
      | some (t, _) => .ok (some t)
    else .ok found

theorem strtok_field {line pat : Text} (hp : pat ≠ []) (hc : ',' ∉ pat) (h : pat <:+: line) :
    ∃ t r, Libc.strtok (· = ',') line = some (t, r) := by
  unfold Libc.strtok
  cases e : line.dropWhile (fun x => decide (x = ',')) with
  | cons c cs => exact ⟨_, _, rfl⟩
  | nil =>
    exfalso
    rw [List.dropWhile_eq_nil_iff] at e
    cases pat with
    | nil => exact hp rfl
    | cons x xs =>
      have hx : x ∈ line := h.subset List.mem_cons_self
      have := e x hx
      simp only [decide_eq_true_eq] at this
      exact hc (by rw [← this]; exact List.mem_cons_self)

theorem look_ok {pat line : Text} (hp : pat ≠ []) (hc : ',' ∉ pat) (f : Option Text) :
    ∃ g, look pat (.ok f) line = .ok g := by
  unfold look
  dsimp only [Out.bind]
  by_cases h : (Verif.Str.strstr line pat).isSome
  · rw [if_pos h]
    obtain ⟨t, r, e⟩ := strtok_field hp hc ((Verif.Find.strstr_isSome (t := line) (w := pat)).1 h)
    rw [e]
    exact ⟨_, rfl⟩
  · rw [if_neg h]; exact ⟨_, rfl⟩

theorem look_fold {pat : Text} (hp : pat ≠ []) (hc : ',' ∉ pat) (ls : List Text) (f : Option Text) :
    ∃ g, ls.foldl (look pat) (.ok f) = .ok g := by
  induction ls generalizing f with
  | nil => exact ⟨f, rfl⟩
  | cons l ls ih =>
    obtain ⟨g, e⟩ := look_ok (line := l) hp hc f
    rw [List.foldl_cons, e]
    exact ih g

theorem look_none {pat : Text} (ls : List Text) (h : ∀ l ∈ ls, ¬ pat <:+: l) (f : Option Text) :
    ls.foldl (look pat) (.ok f) = .ok f := by
  induction ls with
  | nil => rfl
  | cons l ls ih =>
    rw [List.foldl_cons]
    have : look pat (.ok f) l = .ok f := by
      unfold look
      dsimp only [Out.bind]
      rw [if_neg (fun x => h l List.mem_cons_self ((Verif.Find.strstr_isSome (t := l) (w := pat)).1 x))]
    rw [this]
    exact ih (fun x hx => h x (List.mem_cons_of_mem _ hx))

/-- C303: the name of the file is the first field of the last line of the listing that contains the start of the name. -/
theorem c303_listed (before after : List Text) (name rest pat : Text)
    (hl : ∀ l ∈ before ++ (name ++ ',' :: rest) :: after, '\n' ∉ l ∧ l.length < 1023)
    (hp : pat ≠ []) (hc : ',' ∉ pat) (hn : '\n' ∉ pat) (hname : name ≠ []) (hnc : ',' ∉ name)
    (hin : pat <:+: name ++ ',' :: rest) (hafter : ∀ l ∈ after, ¬ pat <:+: l) :
    lookup ((before ++ (name ++ ',' :: rest) :: after).flatMap fun l => l ++ ['\n']) pat = .ok (some name) := by
  unfold lookup
  rw [Libc.fgetsAll_lines 1024 _ (fun l h => ⟨(hl l h).1, by have := (hl l h).2; omega⟩)]
  show List.foldl (look pat) _ _ = _
  rw [List.map_append, List.map_cons, List.foldl_append, List.foldl_cons]
  obtain ⟨g, e⟩ := look_fold hp hc (before.map fun l => l ++ ['\n']) none
  rw [e]
  have hstep : look pat (.ok g) (name ++ ',' :: rest ++ ['\n']) = .ok (some name) := by
    unfold look
    dsimp only [Out.bind]
    rw [if_pos ((Verif.Find.strstr_isSome (w := pat)).2 ((infix_line hn).2 hin))]
    have := Libc.strtok_cons (fun x => decide (x = ',')) [] name (rest ++ ['\n'])
    cases hname' : name with
    | nil => exact absurd hname' hname
    | cons x xs =>
      have hx : x ≠ ',' := fun e => hnc (by rw [hname', e]; exact List.mem_cons_self)
      have ht : ∀ y ∈ x :: xs, (!decide (y = ',')) = true := by
        intro y hy
        simp only [Bool.not_eq_true', decide_eq_false_iff_not]
        exact fun e => hnc (by rw [hname', ← e]; exact hy)
      unfold Libc.strtok
      rw [List.cons_append, List.cons_append, List.dropWhile_cons_of_neg (by simpa using hx)]
      dsimp only
      have : (x :: (xs ++ ',' :: rest ++ ['\n'])).takeWhile (fun c => !decide (c = ',')) = x :: xs := by
        rw [show x :: (xs ++ ',' :: rest ++ ['\n']) = (x :: xs) ++ (',' :: (rest ++ ['\n'])) by simp,
          List.takeWhile_append_of_pos ht]
        simp
      rw [this]
  rw [hstep]
  apply look_none
  intro l hl'
  rw [List.mem_map] at hl'
  obtain ⟨l', h1, rfl⟩ := hl'
  rw [infix_line hn]
  exact hafter l' h1

/-- C303: a granule that is not in the listing is not found. -/
theorem c303_unlisted (ls : List Text) (pat : Text) (hl : ∀ l ∈ ls, '\n' ∉ l ∧ l.length < 1023) (hn : '\n' ∉ pat)
    (h : ∀ l ∈ ls, ¬ pat <:+: l) : lookup (ls.flatMap fun l => l ++ ['\n']) pat = .ok none := by
  unfold lookup
  rw [Libc.fgetsAll_lines 1024 _ (fun l h => ⟨(hl l h).1, by have := (hl l h).2; omega⟩)]
  apply look_none
  intro l hl'
  rw [List.mem_map] at hl'
  obtain ⟨l', h1, rfl⟩ := hl'
  rw [infix_line hn]
  exact h l' h1

example : lookup "A.1,x\nA.2.hdf,y\nA.3,z\n".toList "A.2".toList = .ok (some "A.2.hdf".toList) := by decide +kernel

theorem fetchFile_kept (server : Text → Nat → Transfer) (fs : Files) (name n c : Text) (h : fs n = some c) :
    fetchFile server fs name n = some c := by
  unfold fetchFile
  split
  · rename_i e
    rw [← e, h, fetch_stop _ _ _ _ (by simp)]
  · exact h

theorem fetchFile_id (server : Text → Nat → Transfer) (fs : Files) (name c : Text) (h : fs name = some c) :
    fetchFile server fs name = fs := by
  funext n
  unfold fetchFile
  split
  · rename_i e
    rw [e, h, fetch_stop _ _ _ _ (by simp)]
  · rfl

/-- C303: no file that is there is changed, whatever the server delivers and whatever becomes of the granule. -/
theorem c303_untouched (server : Text → Nat → Transfer) (opens : Text → Bool) (dirHdf sen : Text) (year : Int) (id : Text)
    (fs : Files) (n c : Text) (h : fs n = some c) : (granule server opens dirHdf sen year id fs).1 n = some c := by
  unfold granule
  cases (pattern sen id).bind fun p => (dayOf p).bind fun d => Out.ok (p, d) with
  | exit => exact h
  | ub => exact h
  | ok pd =>
    obtain ⟨pat, doy⟩ := pd
    dsimp only
    split
    · exact h
    · have h1 := fetchFile_kept server fs (listName dirHdf sen year doy) n c h
      cases hl : fetchFile server fs (listName dirHdf sen year doy) (listName dirHdf sen year doy) with
      | none => exact h1
      | some listing =>
        dsimp only
        cases hk : lookup listing pat with
        | exit => exact h1
        | ub => exact h1
        | ok o =>
          cases o with
          | none => exact h1
          | some base =>
            dsimp only
            split
            · exact h1
            · have h2 := fetchFile_kept server _ (dirHdf ++ '/' :: base) n c h1
              cases hf : fetchFile server (fetchFile server fs (listName dirHdf sen year doy))
                  (dirHdf ++ '/' :: base) (dirHdf ++ '/' :: base) with
              | none => exact h2
              | some content =>
                dsimp only
                split <;> exact h2

/-- C303: the data that are read are the content of the local file with the listed name; the file can be opened. -/
theorem c303_data {server : Text → Nat → Transfer} {opens : Text → Bool} {dirHdf sen : Text} {year : Int} {id : Text}
    {fs fs' : Files} {content : Text} (h : granule server opens dirHdf sen year id fs = (fs', .data content)) :
    opens content = true ∧ ∃ pat doy listing base, pattern sen id = .ok pat ∧ dayOf pat = .ok doy ∧
      fs' (listName dirHdf sen year doy) = some listing ∧ lookup listing pat = .ok (some base) ∧
      fs' (dirHdf ++ '/' :: base) = some content := by
  unfold granule at h
  cases hp : pattern sen id with
  | exit => rw [hp] at h; simp [Out.bind] at h
  | ub => rw [hp] at h; simp [Out.bind] at h
  | ok pat =>
    cases hd : dayOf pat with
    | exit => rw [hp] at h; simp [Out.bind, hd] at h
    | ub => rw [hp] at h; simp [Out.bind, hd] at h
    | ok doy =>
      rw [hp] at h
      dsimp only [Out.bind] at h
      rw [hd] at h
      dsimp only at h
      split at h
      · simp at h
      · cases hl : fetchFile server fs (listName dirHdf sen year doy) (listName dirHdf sen year doy) with
        | none => rw [hl] at h; simp at h
        | some listing =>
          rw [hl] at h
          dsimp only at h
          cases hk : lookup listing pat with
          | exit => rw [hk] at h; simp at h
          | ub => rw [hk] at h; simp at h
          | ok o =>
            rw [hk] at h
            cases o with
            | none => simp at h
            | some base =>
              dsimp only at h
              split at h
              · simp at h
              · cases hf : fetchFile server (fetchFile server fs (listName dirHdf sen year doy))
                  (dirHdf ++ '/' :: base) (dirHdf ++ '/' :: base) with
                | none => rw [hf] at h; simp at h
                | some c =>
                  rw [hf] at h
                  dsimp only at h
                  split at h
                  · rename_i ho
                    rw [Prod.mk.injEq, Fate.data.injEq] at h
                    obtain ⟨h1, rfl⟩ := h
                    subst h1
                    exact ⟨ho, pat, doy, listing, base, rfl, hd, fetchFile_kept _ _ _ _ _ hl, hk, hf⟩
                  · simp at h

/-- C301, violated: a truncated file that cannot be opened ends the program, leaves everything as it is, and therefore ends every
later run that needs the granule, however the server behaves: it has to be removed by hand. -/
theorem c301_stuck_violated (server : Text → Nat → Transfer) (opens : Text → Bool) (dirHdf sen : Text) (year : Int)
    (id : Text) (fs : Files) (pat doy listing base content : Text) (h1 : pattern sen id = .ok pat)
    (h2 : dayOf pat = .ok doy) (h3 : fs (listName dirHdf sen year doy) = some listing)
    (h4 : lookup listing pat = .ok (some base)) (h5 : fs (dirHdf ++ '/' :: base) = some content)
    (h6 : opens content = false) :
    granule server opens dirHdf sen year id fs = (fs, .ended) := by
  unfold granule
  rw [h1]
  dsimp only [Out.bind]
  rw [h2]
  dsimp only
  split
  · rfl
  · rw [fetchFile_id server fs _ _ h3, h3]
    dsimp only
    rw [h4]
    dsimp only
    split
    · rfl
    · rw [fetchFile_id server fs _ _ h5, h5]
      dsimp only
      rw [h6]
      rfl

/-- The hypotheses are met: a listing, and a granule that was cut off. -/
example : (granule (fun _ _ => ⟨[], 7⟩) (fun c => decide (c = "HDF data".toList)) "d".toList "MOD".toList 2020
    "MOD03.A2020017.1355.061.hdf".toList
    (fun n => if n = "d/MOD05_L2-2020-017.csv".toList then some "MOD05_L2.A2020017.1355.061.hdf,x\n".toList
      else if n = "d/MOD05_L2.A2020017.1355.061.hdf".toList then some "HDF d".toList else none)).2 = .ended :=
  congrArg Prod.snd <| c301_stuck_violated _ _ _ _ _ _ _ "MOD05_L2.A2020017.1355".toList "017".toList
    "MOD05_L2.A2020017.1355.061.hdf,x\n".toList "MOD05_L2.A2020017.1355.061.hdf".toList "HDF d".toList
    (by decide +kernel) (by decide +kernel) (by decide +kernel) (by decide +kernel) (by decide +kernel) (by decide +kernel)

/-! ## C304: credentials -/

/-- The file with the key: in the directory that the environment names, or else in the home directory. -/
def Spec.KeyFile (env login : Option Text) (name : Text) : Prop :=
  (∃ dir, env = some dir ∧ name = dir ++ "/.laads".toList) ∨
  (env = none ∧ ∃ user, login = some user ∧ name = "/home/".toList ++ user ++ "/.laads".toList)

theorem keyFile_iff (env login : Option Text) (name : Text) :
    keyFile env login = .ok name ↔ Spec.KeyFile env login name ∧ name.length < 1024 := by
  unfold keyFile Spec.KeyFile
  cases env with
  | none =>
    cases login with
    | none => simp
    | some user =>
      dsimp only
      split
      · rename_i h
        constructor
        · intro e; simp at e
        · rintro ⟨(⟨d, e, _⟩ | ⟨_, u, e, rfl⟩), hl⟩
          · simp at e
          · obtain rfl := Option.some.inj e
            omega
      · rename_i h
        constructor
        · intro e
          obtain rfl := Out.ok.inj e
          exact ⟨Or.inr ⟨rfl, user, rfl, rfl⟩, by omega⟩
        · rintro ⟨(⟨d, e, _⟩ | ⟨_, u, e, rfl⟩), hl⟩
          · simp at e
          · obtain rfl := Option.some.inj e
            rfl
  | some dir =>
    dsimp only
    split
    · rename_i h
      constructor
      · intro e; simp at e
      · rintro ⟨(⟨d, e, rfl⟩ | ⟨e, _⟩), hl⟩
        · obtain rfl := Option.some.inj e
          omega
        · simp at e
    · rename_i h
      constructor
      · intro e
        obtain rfl := Out.ok.inj e
        exact ⟨Or.inl ⟨dir, rfl, rfl⟩, by omega⟩
      · rintro ⟨(⟨d, e, rfl⟩ | ⟨e, _⟩), hl⟩
        · obtain rfl := Option.some.inj e
          rfl
        · simp at e

theorem fgetsGo_last (size : Nat) (l acc : Text) (hl : '\n' ∉ l) (hne : acc ++ l ≠ [])
    (hlen : acc.length + l.length + 1 < size) : Libc.fgetsGo size acc l = [acc ++ l] := by
  induction l generalizing acc with
  | nil => simpa [Libc.fgetsGo] using hne
  | cons c l ih =>
    rw [Libc.fgetsGo, if_neg (by
      rintro (h | h)
      · exact hl (h ▸ List.mem_cons_self)
      · simp at hlen; omega), ih (acc ++ [c]) (fun h => hl (List.mem_cons_of_mem _ h)) (by simp) (by simp at hlen ⊢; omega)]
    simp

theorem fgetsGo_long (size : Nat) (l rest acc : Text) (hl : '\n' ∉ l) (hne : l ≠ [])
    (hlen : acc.length + l.length + 1 = size) : (Libc.fgetsGo size acc (l ++ rest)).head? = some (acc ++ l) := by
  induction l generalizing acc with
  | nil => exact absurd rfl hne
  | cons c l ih =>
    rw [List.cons_append, Libc.fgetsGo]
    cases l with
    | nil =>
      rw [if_pos (Or.inr (by simp at hlen; omega))]
      rfl
    | cons d l =>
      rw [if_neg (by
        rintro (h | h)
        · exact hl (h ▸ List.mem_cons_self)
        · simp at hlen; omega), ih (acc ++ [c]) (fun h => hl (List.mem_cons_of_mem _ h)) (by simp)
          (by simp at hlen ⊢; omega)]
      simp

/-- C304, part: the header of the requests holds the first line of the file with the key, if this is a file of a single line
without newline, of up to 4073 characters. Missing: a newline (`c304_newline_violated`). -/
theorem c304_header_partial (env login : Option Text) (fs : Files) (name key : Text)
    (hf : Spec.KeyFile env login name) (hn : name.length < 1024) (hc : fs name = some key) (hk : '\n' ∉ key)
    (hne : key ≠ []) (hlen : key.length ≤ 4073) :
    laadsKey env login fs = .ok ("Authorization: Bearer ".toList ++ key) := by
  unfold laadsKey
  rw [(keyFile_iff env login name).2 ⟨hf, hn⟩]
  dsimp only [Out.bind]
  rw [hc]
  dsimp only
  rw [show Libc.fgetsAll 4096 key = [key] from fgetsGo_last 4096 key [] hk (by simpa using hne) (by simp; omega)]
  dsimp only
  rw [if_neg (by
    rw [List.length_append]
    have : "Authorization: Bearer ".toList.length = 22 := by decide
    omega)]

/-- C304, violated: if the line with the key ends with a newline, as lines do, then the newline is a part of the header, for all keys. -/
theorem c304_newline_violated (env login : Option Text) (fs : Files) (name key rest : Text)
    (hf : Spec.KeyFile env login name) (hn : name.length < 1024) (hc : fs name = some (key ++ '\n' :: rest))
    (hk : '\n' ∉ key) (hlen : key.length ≤ 4072) :
    laadsKey env login fs = .ok ("Authorization: Bearer ".toList ++ key ++ ['\n']) := by
  unfold laadsKey
  rw [(keyFile_iff env login name).2 ⟨hf, hn⟩]
  dsimp only [Out.bind]
  rw [hc]
  dsimp only
  rw [Libc.fgetsAll_line 4096 key rest hk (by omega)]
  dsimp only
  rw [if_neg (by
    rw [List.length_append, List.length_append]
    have : "Authorization: Bearer ".toList.length = 22 := by decide
    rw [this, List.length_singleton]
    omega), List.append_assoc]

/-- C304: a line of 4074 characters or more does not fit, and is refused; no part of it is ever sent. -/
theorem c304_long (env login : Option Text) (fs : Files) (name key rest : Text)
    (hf : Spec.KeyFile env login name) (hn : name.length < 1024) (hc : fs name = some (key ++ rest))
    (hk : '\n' ∉ key) (hlen : key.length = 4074) : laadsKey env login fs = .exit := by
  unfold laadsKey
  rw [(keyFile_iff env login name).2 ⟨hf, hn⟩]
  dsimp only [Out.bind]
  rw [hc]
  dsimp only
  cases e : Libc.fgetsAll 4096 (key ++ rest) with
  | nil => rfl
  | cons x xs =>
    have hpre : 4074 ≤ x.length := by
      have go : ∀ (l acc : Text), '\n' ∉ l → acc.length + l.length ≤ 4095 → l ≠ [] →
          ∀ y ys, Libc.fgetsGo 4096 acc (l ++ rest) = y :: ys → acc.length + l.length ≤ y.length := by
        intro l
        induction l with
        | nil => intro acc _ _ h; exact absurd rfl h
        | cons c l ih =>
          intro acc hl hle _ y ys hy
          rw [List.cons_append, Libc.fgetsGo] at hy
          split at hy
          · rename_i h
            rcases h with h | h
            · exact absurd (h ▸ List.mem_cons_self) hl
            · have : y = acc ++ [c] := (List.cons.inj hy).1.symm
              rw [this]; simp only [List.length_append, List.length_cons, List.length_nil] at hle ⊢; omega
          · by_cases hl0 : l = []
            · subst hl0
              rw [List.nil_append] at hy
              have ext : ∀ (r acc' : Text) y ys, Libc.fgetsGo 4096 acc' r = y :: ys → acc'.length ≤ y.length := by
                intro r
                induction r with
                | nil =>
                  intro acc' y ys h
                  rw [Libc.fgetsGo] at h
                  split at h
                  · simp at h
                  · have : y = acc' := (List.cons.inj h).1.symm
                    rw [this]
                | cons d r ihr =>
                  intro acc' y ys h
                  rw [Libc.fgetsGo] at h
                  split at h
                  · have : y = acc' ++ [d] := (List.cons.inj h).1.symm
                    rw [this]; simp
                  · have := ihr (acc' ++ [d]) y ys h
                    simp at this; omega
              have := ext rest (acc ++ [c]) y ys hy
              simpa using this
            · have := ih (acc ++ [c]) (fun h => hl (List.mem_cons_of_mem _ h)) (by simp at hle ⊢; omega) hl0 y ys hy
              simp at this ⊢; omega
      have := go key [] hk (by simp; omega) (by intro h; rw [h] at hlen; simp at hlen) x xs e
      simpa [hlen] using this
    dsimp only
    rw [if_pos (by
      rw [List.length_append]
      have : "Authorization: Bearer ".toList.length = 22 := by decide
      omega)]

/-- C304: without a file the program ends. -/
theorem c304_missing (env login : Option Text) (fs : Files) (name : Text) (hf : Spec.KeyFile env login name)
    (hn : name.length < 1024) (hc : fs name = none) : laadsKey env login fs = .exit := by
  unfold laadsKey
  rw [(keyFile_iff env login name).2 ⟨hf, hn⟩]
  dsimp only [Out.bind]
  rw [hc]

/-- C304, violated: without the environment variable and without a login (as in a container) there is a warning only: a file name
that was never set is then read. -/
theorem c304_unset_violated (fs : Files) : laadsKey none none fs = .ub := rfl

/-- The hypotheses are met. -/
example : Spec.KeyFile (some "/cred".toList) none "/cred/.laads".toList := Or.inl ⟨"/cred".toList, rfl, rfl⟩

example : laadsKey none (some "me".toList) (fun n => if n = "/home/me/.laads".toList then some "k3y\n".toList else none) =
    .ok "Authorization: Bearer k3y\n".toList := by decide +kernel

end Verif.Fetch
