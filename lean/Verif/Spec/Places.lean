import Verif.Spec.NavMachine

/-! # Specification: the places of the navigation data store

The store has `numSats` places.  When a word arrives from a satellite that has none, and all of them are taken, some satellite must lose
its place.  Here: when a satellite is sure to keep its place, in terms of the words received only. -/

namespace Verif

/-- The satellites heard. -/
def heard (p : List InavCall) : List Svn := (p.map (fun c => c.svn)).eraseDups

/-- The satellites heard in the current subframe (that of the last word `c`) or in the `K - 1` subframes seen before it. -/
def heardWithin (K : Nat) (p : List InavCall) : List Svn :=
  heard (p.filter (fun d => decide (laterSubframes p d.gst.subframe < K)))

namespace NavKind

/-- The satellites heard, other than `v` and the one that sent the word `c`, whose oldest field was not older when `c` arrived than the
oldest field of `v`; only the words `r` count for the fields of `v`. -/
def fresherThan (kd : NavKind) (q r : List InavCall) (v : Svn) (c : InavCall) : List Svn :=
  (heard (q ++ r)).filter (fun w => decide (w ≠ v ∧ w ≠ c.svn ∧ kd.oldestAge (q ++ r ++ [c]) w ≤ kd.oldestAge (r ++ [c]) v))

end NavKind

/-- After the words `q`, satellite `v` gets a place with the first of the words `r`, which is its own, and has it during all of them. -/
inductive KeepsPlace (S : Storage) (kd : NavKind) : List InavCall → Svn → List InavCall → Prop
  /-- A satellite heard has a place. -/
  | gets (q : List InavCall) (c : InavCall) : KeepsPlace S kd q c.svn [c]
  /-- Its own words do not take its place. -/
  | own {q r : List InavCall} {v : Svn} (c : InavCall) (h : KeepsPlace S kd q v r) (hc : c.svn = v) : KeepsPlace S kd q v (r ++ [c])
  /-- Neither do the words of a satellite that has a place. -/
  | placed {q r q' r' : List InavCall} {v : Svn} (c : InavCall) (h : KeepsPlace S kd q v r) (hs : q ++ r = q' ++ r')
      (hc : KeepsPlace S kd q' c.svn r') : KeepsPlace S kd q v (r ++ [c])
  /-- Nor any word, when the satellites that come before it fit in the other places. -/
  | fresh {q r : List InavCall} {v : Svn} (c : InavCall) (h : KeepsPlace S kd q v r)
      (hc : (kd.fresherThan q r v c).length + 1 < S.numSats) : KeepsPlace S kd q v (r ++ [c])

end Verif
