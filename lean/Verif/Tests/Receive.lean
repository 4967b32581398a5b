import Verif.Lemmas.Recovery

/-! # The subframes completed by the pages of a history, computed (for the examples) -/

namespace Verif.Sim
open Verif

/-- The messages that `p` completes after `before`. -/
def completedBy (before : List Page) (p : Page) : Option Received :=
  if p.word = 14 then
    let l := inOrder 0 ((sinceSubframe before p.sub).filter (fun q => q.svn == p.svn))
    if h : l.length = 14 ∧ ((l ++ [p]).flatMap Page.hkroot).length = 15 ∧ ((l ++ [p]).flatMap Page.mack).length = 60 then
      some ⟨p.svn, ⟨(l ++ [p]).flatMap Page.hkroot, h.2.1⟩, ⟨(l ++ [p]).flatMap Page.mack, h.2.2⟩, p.sub⟩
    else none
  else none

theorem completedBy_iff (before : List Page) (p : Page) (r : Received) :
    completedBy before p = some r ↔ CompletesSubframe before p r := by
  unfold completedBy
  dsimp only
  constructor
  · intro h
    split at h
    · rename_i hw
      split at h
      · rename_i hl
        cases h
        exact ⟨rfl, hw, hl.1, rfl, rfl, rfl⟩
      · cases h
    · cases h
  · intro h
    have hl := h.words
    have h1 : ((inOrder 0 ((sinceSubframe before p.sub).filter (fun q => q.svn == p.svn)) ++ [p]).flatMap Page.hkroot).length = 15 := by
      rw [← h.hkroot]; exact r.hkroot.2
    have h2 : ((inOrder 0 ((sinceSubframe before p.sub).filter (fun q => q.svn == p.svn)) ++ [p]).flatMap Page.mack).length = 60 := by
      rw [← h.mack]; exact r.mack.2
    rw [if_pos h.last, dif_pos ⟨hl, h1, h2⟩]
    have e1 := h.svn
    have e2 := h.gst
    have e3 := h.hkroot
    have e4 := h.mack
    obtain ⟨a, b, c, d⟩ := r
    dsimp only at e1 e2 e3 e4
    congr 1
    rw [Received.mk.injEq]
    exact ⟨e1.symm, Subtype.ext e3.symm, Subtype.ext e4.symm, e2.symm⟩

/-- Goes through the pages `ps` after `before`. -/
def receivedFrom (before : List Page) : List Page → List Received
  | [] => []
  | p :: ps =>
    match completedBy before p with
    | some r => r :: receivedFrom (before ++ [p]) ps
    | none => receivedFrom (before ++ [p]) ps

theorem receivedFrom_spec {before ps : List Page} {rs : List Received} (h : ReceivedIn before rs) :
    ReceivedIn (before ++ ps) (rs ++ receivedFrom before ps) := by
  induction ps generalizing before rs with
  | nil => simpa [receivedFrom] using h
  | cons p ps ih =>
    unfold receivedFrom
    cases hc : completedBy before p with
    | some r =>
      have := ih (ReceivedIn.got p r h ((completedBy_iff _ _ _).1 hc))
      simpa using this
    | none =>
      have := ih (ReceivedIn.skip p h (fun r hr => by rw [(completedBy_iff _ _ _).2 hr] at hc; cases hc))
      simpa using this

/-- The subframes completed by the pages. -/
def receivedOf (ps : List Page) : List Received := receivedFrom [] ps

theorem receivedOf_spec (ps : List Page) : ReceivedIn ps (receivedOf ps) := by
  simpa [receivedOf] using receivedFrom_spec (ps := ps) ReceivedIn.nil

end Verif.Sim
