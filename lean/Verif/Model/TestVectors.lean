import Verif.Model.Galmon
import Verif.Model.Text

/-! # `bin/osnma-test-vectors-to-galmon.rs`: from the CSV test vectors to Galmon packets

Text is a list of code points.  All errors (`anyhow`) are `.error ()`. -/

namespace Verif

/-- `dt.and_utc().timestamp()` in, GST out (`osnma-test-vectors-to-galmon.rs:28-34`; parsing the date is left to `chrono`).
`try_into().unwrap()` panics out of range of `u16` and `u32`; `/` truncates towards zero. -/
def timestampToGst (t : Int) : Res Gst :=
  let gstSeconds := t - 935280000
  let wn := gstSeconds.tdiv 604800
  let tow := gstSeconds - wn * 604800
  if h : 0 ≤ wn ∧ wn < 65536 then
    if 0 ≤ tow ∧ tow < 4294967296 then Gst.new wn.toNat tow.toNat (by omega) else .panic "try_into().unwrap()"
  else .panic "try_into().unwrap()"

/-- `line.split(c)`: `cur` is the field being read. -/
def splitChar (c : Nat) (cur : List Nat) : List Nat → List (List Nat)
  | [] => [cur]
  | x :: xs => if x = c then cur :: splitChar c [] xs else splitChar c (cur ++ [x]) xs

/-- `slice::chunks_exact(n)`. -/
def chunksExact (n : Nat) (l : List Byte) : List (List Byte) :=
  if _h : 0 < n ∧ n ≤ l.length then l.take n :: chunksExact n (l.drop n) else []
termination_by l.length
decreasing_by simp; omega

/-- `BitVec::from_bitslice(&page[i..j])`, `force_align()` and `into_vec()`; a last partial byte is filled with zeros (it does not occur). -/
def bitRange (page : List Byte) (i j : Nat) : Res (List Bool) := slice (bitsOf page) i j

/-- The packet for a page (`osnma-test-vectors-to-galmon.rs:52-95`). -/
def pagePacket (svn : Nat) (gst : Gst) (page : List Byte) : Res GalileoInav := do
  let a ← bitRange page 2 (2 + 112)
  let b ← bitRange page 122 (122 + 16)
  let contents := packBytes (a ++ b)
  let reserved1 ← bitRange page (120 + 2 + 16) (120 + 2 + 16 + 40)
  let reserved2 ← bitRange page (240 - 8 - 6) (240 - 6)
  let reserved2 := packBytes reserved2
  let ssp ← index reserved2 0
  let sar ← bitRange page (120 + 2 + 16 + 40) (120 + 2 + 16 + 40 + 24)
  let spare ← bitRange page (120 + 2 + 16 + 40 + 22) (120 + 2 + 16 + 40 + 22 + 2)
  let crc ← bitRange page (240 - 8 - 6 - 24) (240 - 8 - 6)
  pure {
    gnssWn := BitVec.ofNat 32 gst.wn
    gnssTow := BitVec.ofNat 32 gst.tow
    gnssId := 2
    gnssSv := BitVec.ofNat 32 svn
    contents := contents
    sigid := some 1
    reserved1 := some (packBytes reserved1)
    reserved2 := some reserved2
    sar := some (packBytes sar)
    spare := some [BitVec.ofNat 8 (loadBe spare)]
    crc := some (packBytes crc)
    ssp := some (BitVec.ofNat 32 ssp.toNat) }

/-- The iterator of `osnma-test-vectors-to-galmon.rs:48-108`: `gst` is advanced (l.54) before the page is read. -/
def pagePackets (svn : Nat) (gst : Gst) : List (List Byte) → Res (List GalileoInav)
  | [] => .ok []
  | page :: pages => do
    let next ← gst.addSeconds 2
    let i ← pagePacket svn gst page
    let is ← pagePackets svn next pages
    pure (i :: is)

/-- `csv_line_to_pages` (`osnma-test-vectors-to-galmon.rs:37-111`); the packets are `N.ofInav i`. -/
def csvLineToPages (line : List Nat) (start : Gst) : Res (Except Unit (List GalileoInav)) :=
  match splitChar 44 [] line with
  | f0 :: rest =>
    match parseUint (2 ^ 32) f0 with
    | none => .ok (.error ())
    | some svn =>
      match rest with
      | _ :: f2 :: _ =>
        match hexDecode f2 with
        | none => .ok (.error ())
        | some data =>
          if data.length % 30 ≠ 0 then .ok (.error ())
          else do
            let l ← pagePackets svn start (chunksExact 30 data)
            pure (.ok l)
      | _ => .ok (.error ())
  | [] => .ok (.error ())

/-- `str::lines` without the empty string after a final line end; `cur` is the line being read. -/
def textLines (cur : List Nat) : List Nat → List (List Nat)
  | [] => if cur = [] then [] else [cur]
  | c :: cs =>
    if c = 10 then (if cur.getLast? = some 13 then cur.dropLast else cur) :: textLines [] cs
    else textLines (cur ++ [c]) cs

/-- The loop of `osnma-test-vectors-to-galmon.rs:130-132`. -/
def csvPages (start : Gst) : List (List Nat) → Res (Except Unit (List (List GalileoInav)))
  | [] => .ok (.ok [])
  | line :: lines => do
    match ← csvLineToPages line start with
    | .error e => pure (.error e)
    | .ok l => do
      match ← csvPages start lines with
      | .error e => pure (.error e)
      | .ok ls => pure (.ok (l :: ls))

/-- `for svn_pages in &pages { .. }` (`osnma-test-vectors-to-galmon.rs:140-145`) for one `page_num`: the packets written. -/
def roundOf (pages : List (List GalileoInav)) (k : Nat) : List GalileoInav := pages.filterMap (·[k]?)

/-- The loop of `osnma-test-vectors-to-galmon.rs:136-147`, from `page_num = k` on: the packets written, in order. -/
def rounds (pages : List (List GalileoInav)) (k : Nat) : List GalileoInav :=
  if _h : ∃ l ∈ pages, k < l.length then roundOf pages k ++ rounds pages (k + 1) else []
termination_by (pages.map List.length).sum - k
decreasing_by
  obtain ⟨l, hl, hk⟩ := _h
  have hle : ∀ (ps : List (List GalileoInav)), l ∈ ps → l.length ≤ (ps.map List.length).sum := by
    intro ps
    induction ps with
    | nil => intro h; cases h
    | cons p ps ih =>
      intro h
      rcases List.mem_cons.1 h with rfl | h
      · simp
      · have := ih h; simp; omega
  have := hle pages hl
  omega

/-- `main` of `osnma-test-vectors-to-galmon.rs:113-150` after reading the file: what is written to standard output; `.error ()` if
the program fails.  A write error ends the program (l.144). -/
def convertMain (N : Navmon) (timestamp : Int) (csv : List Nat) : Res (Except Unit Sink) := do
  let start ← timestampToGst timestamp
  match textLines [] csv with
  | [] => pure (.error ())
  | _ :: lines => do
    match ← csvPages start lines with
    | .error e => pure (.error e)
    | .ok pages => do
      loopM (fun (r : Except Unit Sink) i =>
        match r with
        | .error e => pure (.error e)
        | .ok w => do
          match ← writePacket N w (N.ofInav i) with
          | (w, .ok _) => pure (.ok w)
          | (_, .error _) => pure (.error ())) (rounds pages 0) (.ok ⟨[], none⟩)

/-- `main` of `osnma-test-vectors-to-galmon.rs:113-150` with the contents of the file: `fs::read_to_string` (l.124) fails if they are not UTF-8; the time
in the file name is converted before (l.122). -/
def convertFile (N : Navmon) (timestamp : Int) (file : List Byte) : Res (Except Unit Sink) := do
  let _ ← timestampToGst timestamp
  match utf8 file with
  | none => pure (.error ())
  | some csv => convertMain N timestamp csv

end Verif
