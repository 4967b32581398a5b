import Verif.Model.Log

/-! # What a panic leaves behind

A program can catch the panics of `feed_osnma` (`std::panic::catch_unwind`) and use the same `Osnma` object again.  The object is then as the
call left it: the code updates it in place (`&mut self`), and what was updated before the panic stays. -/

namespace Verif

/-- The object that a call of `feed_osnma` leaves when it panics while it processes a completed DSM (`process_dsm`, `osnma.rs:251`), if it
does: the page has been collected (`osnma.rs:210`), the MACK stored (`osnma.rs:243-245`) and the DSM collected (`osnma.rs:250`); the code after the panic
(`process_dsm`, `validate_key`) has done nothing.  `none` if the call does not panic there.  Simplified: what `process_dsm` itself has updated before it panics is taken to be nothing;
`C89_panics_before_any_update` proves that it panics only in the checks of the DSM, which update nothing.  Panics elsewhere are not covered:
`C89_every_panic` proves that there are none for sensible chains. -/
def Osnma.left {C : Crypto} (S : Storage) (o : Osnma C) : Call → Option (Osnma C)
  | .inav .. => none
  | .osnma data svn gst =>
    if data.val.all (fun x => x == 0#8) then none
    else
      match o.subframe.feed data svn gst with
      | .ok (sf, some (hk, m, g)) =>
        match (do
          let b0 ← index hk.val 0
          let ms ← o.data.data.mack.store S m svn g (NmaHeader.mk b0).nmaStatus
          let b1 ← index hk.val 1
          let block ← CollectSubframe.toBytes 13 (hk.val.drop 2)
          let (dsm, out) ← o.data.dsm.feed ⟨b1⟩ block
          pure (b0, ms, dsm, out) : Res (Byte × MackStorage × CollectDsm × Option Dsm)) with
        | .ok (b0, ms, dsm, some x) =>
          let data := { o.data.data with mack := ms }
          match data.processDsm x ⟨b0⟩ g with
          | .panic _ => some ⟨sf, dsm, data⟩
          | .ok _ => none
        | _ => none
      | _ => none

/-- A history of calls in which panics are caught: `Caught S o0 hist log o` when the calls `hist`, each of which either returns or panics while
processing a DSM, lead from `o0` to `o`; `log` has the acceptance messages of the calls that return (one that panics there emits none). -/
inductive Caught {C : Crypto} (S : Storage) (o0 : Osnma C) : List Call → List (KeyEvent C) → Osnma C → Prop
  | nil : Caught S o0 [] [] o0
  | returns {hist : List Call} {log : List (KeyEvent C)} {o o' : Osnma C} (c : Call)
      (h : Caught S o0 hist log o) (hc : c.run S o = .ok o') : Caught S o0 (hist ++ [c]) (log ++ o.events S c) o'
  | panics {hist : List Call} {log : List (KeyEvent C)} {o o' : Osnma C} (c : Call)
      (h : Caught S o0 hist log o) (hp : (c.run S o).Panics) (hl : o.left S c = some o') : Caught S o0 (hist ++ [c]) log o'

end Verif
