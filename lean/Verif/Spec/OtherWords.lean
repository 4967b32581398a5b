import Verif.Spec.NavSpec

/-! # Specification: words that are beside the point

Which words do not matter for the data of one satellite: those of other satellites, and those of the satellite with other data. -/

namespace Verif

/-- After the calls `h`, the word has nothing to do with the data `kd` of the satellite `v`: it is of another satellite, or it carries no part of this
data and is not the first word of the satellite. -/
def InavCall.Beside (c : InavCall) (kd : NavKind) (v : Svn) (h : List Call) : Prop :=
  c.svn ≠ v ∨ ((∃ d ∈ inavsOf h, d.svn = v) ∧ ∀ f ∈ kd.fields, kd.carries c f = false)

/-- The call that delivers a word. -/
def InavCall.call (c : InavCall) : Call := .inav c.word c.svn c.gst c.band

/-- A word was received in the subframe of this one. -/
def InavCall.SubframeSeen (c : InavCall) (h : List Call) : Prop := ∃ d ∈ inavsOf h, d.gst.subframe = c.gst.subframe

/-- The two histories have the same pages and the same words with the data `kd` of the satellite `v`.  The other words can differ: in
content, band, and satellite (another one than `v`); and those that are not the first of their subframe can be missing. -/
inductive SameFor (kd : NavKind) (v : Svn) : List Call → List Call → Prop
  | nil : SameFor kd v [] []
  | both {h h' : List Call} (s : SameFor kd v h h') (c : Call) : SameFor kd v (h ++ [c]) (h' ++ [c])
  | other {h h' : List Call} (s : SameFor kd v h h') (c c' : InavCall) (hc : c.Beside kd v h) (hc' : c'.Beside kd v h')
      (hs : c.gst.subframe = c'.gst.subframe) : SameFor kd v (h ++ [c.call]) (h' ++ [c'.call])
  | left {h h' : List Call} (s : SameFor kd v h h') (c : InavCall) (hc : c.Beside kd v h) (hs : c.SubframeSeen h) :
      SameFor kd v (h ++ [c.call]) h'
  | right {h h' : List Call} (s : SameFor kd v h h') (c : InavCall) (hc : c.Beside kd v h') (hs : c.SubframeSeen h') :
      SameFor kd v h (h' ++ [c.call])

end Verif
