import Verif.Str.Model
import Verif.Libc.Model

/-!
Model of the downloads of `force-lut-modis`: the transfer of one file
(src/modules/cross-level/download-cl.c), the loops that repeat it, the look-up of a granule in the listing of
a day, and the credentials (src/modules/lower-level/modwvp-ll.c). The network is a parameter: what the server
delivers in each transfer, and the code that libcurl returns. Local directories are writable: that a file cannot be
created is not modelled.
-/

namespace Verif.Fetch

open Verif.Str (Out)

abbrev Text := List Char

/-- One transfer: the blocks that libcurl hands to the callback, in order, and the code it returns at the end (0 for
success; an interrupted transfer has delivered some blocks and returns another code). -/
structure Transfer where
  blocks : List Text
  code : Nat

/-- download-cl.c:240-256 `curl_write_download`: whether the file is open, and its content. Opening it with mode "wb"
creates it, or removes what it held. -/
def writeBlock (st : Bool × Option Text) (block : Text) : Bool × Option Text :=
  let st := if st.1 then st else (true, some [])
  (true, some (st.2.getD [] ++ block))

/-- download-cl.c:57-114 `download_file`: the local file afterwards, and the code. Nothing is removed if the transfer
failed. -/
def downloadFile (t : Transfer) (file : Option Text) : Option Text × Nat :=
  ((t.blocks.foldl writeBlock (false, file)).2, t.code)

/-- The local file if the program is killed in a transfer, after `k` blocks (download-cl.c:100). -/
def killed (t : Transfer) (k : Nat) (file : Option Text) : Option Text :=
  ((t.blocks.take k).foldl writeBlock (false, file)).2

/-- modwvp-ll.c:1064-1070, 1098-1104 and 651-657; and 691-706, with the same tests in another order. `tries` is `try__`,
`n` the number of transfers so far; result: the local file and the number of transfers. -/
def fetch (server : Nat → Transfer) (tries n : Nat) (file : Option Text) : Option Text × Nat :=
  if h : tries < 10 ∧ file = none then
    let r := downloadFile (server n) file
    fetch server ((if r.2 = 78 then 99 else tries) + 1) (n + 1) r.1
  else (file, n)
termination_by 10 - tries
decreasing_by split <;> omega

/-- modwvp-ll.c:1044, 1064-1070 and 1079, 1098-1104: no transfer for a day with an outage of the satellite. -/
def fetchMeta (server : Nat → Transfer) (outage : Bool) (file : Option Text) : Option Text × Nat :=
  fetch server (if outage then 99 else 0) 0 file

/-! ### Granules -/

/-- Contents of the local files. -/
abbrev Files := Text → Option Text

/-- modwvp-ll.c:651-657 and 691-706 for the file with a name. -/
def fetchFile (server : Text → Nat → Transfer) (fs : Files) (name : Text) : Files :=
  fun n => if n = name then (fetch (server name) 0 0 (fs name)).1 else fs n

/-- modwvp-ll.c:619-627: start of the name of the granule with geometa name `id`. -/
def pattern (sen id : Text) : Out Text :=
  (Verif.Str.overwritePart "MOD05_L2.A2021202.0020.061.2021202161526.hdf".toList 0 sen 3).bind fun p =>
  (Verif.Str.overwritePart p 3 "05_L2".toList 5).bind fun p =>
  (Verif.Str.overwritePart p 8 (id.drop 5) 14).bind fun p => .ok (p.take 22)

/-- modwvp-ll.c:620, 629-630: day of the year. -/
def dayOf (pat : Text) : Out Text := Verif.Str.overwritePart "202".toList 0 (pat.drop 14) 3

/-- modwvp-ll.c:666-673: the name from the listing. A line that has no first field (`str` is NULL) would be copied from
nowhere. -/
def lookup (listing pat : Text) : Out (Option Text) :=
  (Libc.fgetsAll 1024 listing).foldl (fun acc line => acc.bind fun found =>
    if (Verif.Str.strstr line pat).isSome then
      match Libc.strtok (· = ',') line with
      | none => .ub
      | some (t, _) => .ok (some t)
    else .ok found) (.ok none)

/-- What happens to a granule: it is left out (`continue`), the program ends, or its data are read. -/
inductive Fate where
  | skipped
  | ended
  | undefined
  | data (content : Text)
deriving DecidableEq

/-- modwvp-ll.c:646-649: local name of the listing. -/
def listName (dirHdf sen : Text) (year : Int) (doy : Text) : Text :=
  dirHdf ++ '/' :: sen ++ "05_L2-".toList ++ Libc.fmtInt0 4 year ++ '-' :: doy ++ ".csv".toList

/-- modwvp-ll.c:616-719: one granule. `opens` tells whether GDAL can open a file with this content. The URLs
(modwvp-ll.c:632-636, 640-644, 684-688) are not built: they are shorter than 1024 characters if the name of
the file is (the fixed part has less than 80 characters, and file names at most 255). -/
def granule (server : Text → Nat → Transfer) (opens : Text → Bool) (dirHdf sen : Text) (year : Int) (id : Text)
    (fs : Files) : Files × Fate :=
  match (pattern sen id).bind fun p => (dayOf p).bind fun d => .ok (p, d) with
  | .exit => (fs, .ended)
  | .ub => (fs, .undefined)
  | .ok (pat, doy) =>
    let list := listName dirHdf sen year doy
    if list.length ≥ 1024 then (fs, .ended) else
    let fs := fetchFile server fs list
    match fs list with
    | none => (fs, .skipped)
    | some listing =>
      match lookup listing pat with
      | .exit => (fs, .ended)
      | .ub => (fs, .undefined)
      | .ok none => (fs, .skipped)
      | .ok (some base) =>
        let full := dirHdf ++ '/' :: base
        if full.length ≥ 1024 then (fs, .ended) else
        let fs := fetchFile server fs full
        match fs full with
        | none => (fs, .skipped)
        | some content => if opens content then (fs, .data content) else (fs, .ended)

/-! ### Credentials -/

/-- modwvp-ll.c:52-71: name of the file with the key. `.ub`: the name is used although it was never set. -/
def keyFile (env login : Option Text) : Out Text :=
  match env with
  | none =>
    match login with
    | none => .ub
    | some user => if ("/home/".toList ++ user ++ "/.laads".toList).length ≥ 1024 then .exit
        else .ok ("/home/".toList ++ user ++ "/.laads".toList)
  | some dir => if (dir ++ "/.laads".toList).length ≥ 1024 then .exit else .ok (dir ++ "/.laads".toList)

/-- modwvp-ll.c:43-90 `get_laads_key`, with the size of force-lut-modis.c:215. -/
def laadsKey (env login : Option Text) (fs : Files) : Out Text :=
  (keyFile env login).bind fun name =>
    match fs name with
    | none => .exit
    | some content =>
      match Libc.fgetsAll 4096 content with
      | [] => .exit
      | key :: _ => if ("Authorization: Bearer ".toList ++ key).length ≥ 4096 then .exit
          else .ok ("Authorization: Bearer ".toList ++ key)

end Verif.Fetch
