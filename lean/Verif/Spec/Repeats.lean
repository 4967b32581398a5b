import Verif.Spec.Complete
import Verif.Spec.Places

/-! # Specification: hearing the same thing more than once

Several ground stations deliver the same page of the same satellite more than once.  Here: which calls repeat an
earlier one, and what is left of a history when the repetitions are removed. -/

namespace Verif

/-- The later call `b` repeats the earlier call `a`.  A navigation word is repeated by the same word of the same satellite and band in
the same subframe.  A page of OSNMA data (not all zeros) is repeated by any data of the same satellite for the same page of the same
subframe; the data need not be equal (the second copy may be corrupted). -/
def Call.RepeatedBy (a b : Call) : Bool :=
  match a, b with
  | .inav w s g band, .inav w' s' g' band' => w == w' && s == s' && g.subframe == g'.subframe && band == band'
  | .osnma d s g, .osnma d' s' g' =>
    !d.val.all (fun x => x == 0#8) && s == s' && g.subframe == g'.subframe && (Page.mk d s g).word == (Page.mk d' s' g').word
  | _, _ => false

/-- The calls of a history, the repetitions left out: of each page or word, the first copy. -/
def onceEach (hist : List Call) : List Call :=
  hist.foldl (fun kept c => if kept.any (fun a => a.RepeatedBy c) then kept else kept ++ [c]) []

/-- The words of a satellite do not change within a subframe: two words of the same type in the same subframe agree in the bits that
are navigation data. -/
def SteadyWords (p : List InavCall) : Prop :=
  ∀ a ∈ p, ∀ b ∈ p, a.svn = b.svn → a.gst.subframe = b.gst.subframe →
    ∀ (kd : NavKind), ∀ f ∈ kd.fields, kd.carries a f = true → kd.carries b f = true → f.bits a = f.bits b

/-- Reception by several stations: subframes come in order; the first copies of the pages of each satellite come in order; the words do
not change within a subframe. -/
structure HeardBySeveral (hist : List Call) : Prop where
  words : Chronological (inavsOf hist)
  pages : (pagesOf hist).Pairwise (fun p q => p.sub.abs ≤ q.sub.abs)
  firsts : (pagesOf (onceEach hist)).Pairwise (fun p q => p.svn = q.svn → p.sub = q.sub → p.word < q.word)
  steady : SteadyWords (inavsOf hist)

/-- A satellite whose word is heard again still has its place. -/
def RoomForRepeats (S : Storage) (p : List InavCall) : Prop :=
  ∀ (q r t : List InavCall) (c d : InavCall), p = q ++ c :: r ++ d :: t → d.svn = c.svn → d.gst.subframe = c.gst.subframe →
    ∀ kd : NavKind, KeepsPlace S kd q c.svn (c :: r)

end Verif
