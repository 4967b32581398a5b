import Verif.Props.Switch

/-! # C75: cold start

A receiver that was given the public key, and nothing else, hears a genuine broadcast (`Spec/Broadcast.lean`).  This is C76 with
nothing heard before.  Cases: `Props/ColdStartExample.lean`. -/

namespace Verif

variable {S : Storage} {C : Crypto} {b : Broadcast C} {root0 : Option MerkleTreeNode} {slow : Bool} {hist : List Call}
  {log : List (KeyEvent C)} {o : Osnma C}

theorem fresh_key {pk : PublicKey C} : (Osnma.new S root0 (some pk) slow : Osnma C).Fresh S := by
  cases root0 with
  | none => exact .inr ⟨pk, slow, rfl⟩
  | some r => exact .inl ⟨r, some pk, slow, rfl⟩

/-- Nothing came before. -/
theorem Heard.follows (hh : Heard b hist) : Follows b (some b.pk) [] [] hist where
  heard := hh
  later := fun p hp => by cases hp
  held := .inl rfl
  newId := by
    intro rs r hr hl
    rw [hr.nil_inv] at hl
    cases hl
  leads := by
    intro q _ k hk
    rcases hk with hk | hk <;> cases hk

/-- **C75.**  A receiver with the public key that hears a genuine broadcast, of which anything may be missing, in any order, and any
words, does not panic. -/
theorem C75_never_panics (hS : S.Consistent) (hb : b.Sound) (hh : Heard b hist) :
    ∃ log o, Logs S (Osnma.new S root0 (some b.pk) slow) hist log o :=
  C76_never_panics hS fresh_key hb .nil hh.follows
    (by intro h data pk k g h' data' pk' k' g' he; cases he) (by intro h data pk k g he; cases he)

/-- **C75.**  Once all the blocks of the DSM-KROOT were received, it has been accepted: only TESLA keys were reported before and
after. -/
theorem C75_kroot_accepted (hb : b.Sound) (h : Logs S (Osnma.new S root0 (some b.pk) slow) hist log o) (hh : Heard b hist)
    (hord : (pagesOf hist).Pairwise (fun p q => p.sub.abs ≤ q.sub.abs)) {til : Gst} (hk : KrootHeard b hist til) :
    ∃ (g : Gst) (ks ks' : List Key), g.abs ≤ til.abs ∧
      log = ks.map .tesla ++ [.kroot b.header b.kroot b.pk b.root g] ++ ks'.map .tesla :=
  C76_kroot_accepted (before := []) (log₁ := []) hb .nil h hh.follows hord hk

/-- **C75.**  If all the blocks of the DSM-KROOT were received by the end of a subframe, and some satellite was heard during all of
this subframe, then its TESLA key has been accepted. -/
theorem C75_key_accepted (hb : b.Sound) (h : Logs S (Osnma.new S root0 (some b.pk) slow) hist log o) (hh : Heard b hist)
    (hord : (pagesOf hist).Pairwise (fun p q => p.sub.abs ≤ q.sub.abs)) {g : Gst} (hk : KrootHeard b hist g) {v : Svn}
    (hv : HeardWhole hist v g) : KeyEvent.tesla (b.key g) ∈ log :=
  C76_key_accepted (before := []) (log₁ := []) hb .nil h hh.follows hord hk hv

/-- **C75.**  After a cold start on a genuine broadcast, if the data of a kind received from a satellite was `bits` since call number
`n`, and tags of these data were heard, whose keys were disclosed after call number `n`, together of at least 40 bits, then the
receiver returns exactly these data, with at least the sum of the sizes of the tags as authentication bits (65535 at most). -/
theorem C75_authenticates (hS : S.Consistent) (hb : b.Sound) (h : run S (Osnma.new S root0 (some b.pk) slow) hist = .ok o)
    (hh : Heard b hist) (hord : CallsInOrder hist) (hfit : Fits S (inavsOf hist))
    (hroom : ∀ g : Gst, ∃ sats : List Svn, sats.length ≤ S.numSats ∧ ∀ p ∈ pagesOf hist, p.sub = g → p.svn ∈ sats)
    (hweek : ∀ c ∈ inavsOf hist, 7650 ≤ c.gst.abs) (kd : NavKind) (v : Svn) (bits : List Bool) (n : Nat)
    (hn : n ≤ hist.length) (hfed : ∃ c ∈ inavsOf (hist.take n), c.svn = v)
    (hsame : ∀ i, n ≤ i → i ≤ hist.length → kd.expected (inavsOf (hist.take i)) v = bits)
    (tags : List TagUse) (hnd : tags.Nodup) (htags : ∀ u ∈ tags, TagHeard b S slow hist hist kd v bits u ∧
      ∀ c ∈ hist.take n, c.gst.subframe.abs < u.key.gst.abs)
    (henough : 40 ≤ (tags.map (fun u => u.tag.tag.length)).sum) :
    ∃ d, o.get S kd v = .ok (some d) ∧ d.data = bits ∧ min 65535 (tags.map (fun u => u.tag.tag.length)).sum ≤ d.authbits :=
  C76_authenticates (before := []) (after := hist) (log₁ := []) hS fresh_key hb .nil h hh.follows hord hfit hroom hweek kd v bits n hn hfed
    hsame tags hnd (fun u hu => ⟨(htags u hu).1, (htags u hu).2, fun _ => .inl (by intro hd he; cases he)⟩) henough

end Verif
