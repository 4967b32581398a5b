import Verif.Lemmas.Dsm

/-! # C07, C08: the DSM collector -/

namespace Verif
open CollectDsm

/-- **C07** the collector never panics. -/
theorem C07_feed_blocks_returns (hist : List DsmCall) : (feedBlocks .new hist).Returns := by
  obtain ⟨c, outs, h, _⟩ := feedBlocks_inv hist
  exact ⟨_, h⟩

/-- **C07** a completed DSM has the id and type of the header just fed, 13 bytes for each of the
blocks announced by its first block, and its `i`-th block is the first block with number `i` fed
since the DSM id last changed. -/
theorem C07_completed_dsm (hist : List DsmCall) (p : DsmCall) (c c' : CollectDsm)
    (outs : List (Option Dsm)) (dsm : Dsm)
    (hrun : feedBlocks .new hist = .ok (c, outs))
    (hfeed : c.feed p.header p.block = .ok (c', some dsm)) :
    dsm.id = p.header.dsmId ∧ dsm.dsmType = p.header.dsmType ∧
      ∃ n b0, firstBlock (sinceId hist p.header.dsmId ++ [p]) 0 = some b0 ∧
        announcedBlocks p.header.dsmId b0 = some n ∧ dsm.data.length = 13 * n ∧
        ∀ i, i < n → ∃ b, firstBlock (sinceId hist p.header.dsmId ++ [p]) i = some b ∧
          (dsm.data.drop (13 * i)).take 13 = b.val := by
  obtain ⟨c1, out, h1, _, _, h4⟩ := feed_inv p (start_inv hrun p.header)
  rw [hfeed] at h1; cases h1
  obtain ⟨h5, h6, n, ⟨b0, h7, h8, _⟩, h9, h10⟩ := h4 dsm rfl
  exact ⟨h5, h6, n, b0, h7, h8, h9, h10⟩

/-- **C08** a DSM is returned exactly at the call that completes it: all its announced blocks have
been seen since the DSM id last changed, and had not all been seen before this call (so it is
returned once until the id changes). -/
theorem C08_returned_iff (hist : List DsmCall) (p : DsmCall) (c c' : CollectDsm)
    (outs : List (Option Dsm)) (out : Option Dsm)
    (hrun : feedBlocks .new hist = .ok (c, outs))
    (hfeed : c.feed p.header p.block = .ok (c', out)) :
    out.isSome = true ↔
      Complete p.header.dsmId (sinceId hist p.header.dsmId ++ [p]) ∧
        ¬ Complete p.header.dsmId (sinceId hist p.header.dsmId) := by
  obtain ⟨c1, out1, h1, _, h3, _⟩ := feed_inv p (start_inv hrun p.header)
  rw [hfeed] at h1; cases h1
  exact h3

/-- Being complete only depends on the set of the calls when equal numbers carry equal blocks:
`firstBlock` does not depend on the order. -/
theorem firstBlock_perm {r r' : List DsmCall}
    (hcons : ∀ x ∈ r, ∀ y ∈ r', x.header.dsmBlockId = y.header.dsmBlockId → x.block = y.block)
    {i : Nat} {b b' : DsmBlock} (h : firstBlock r i = some b) (h' : firstBlock r' i = some b') :
    b = b' := by
  simp only [firstBlock, Option.map_eq_some_iff] at h h'
  obtain ⟨x, hx, rfl⟩ := h
  obtain ⟨y, hy, rfl⟩ := h'
  apply hcons x (List.mem_of_find?_eq_some hx) y (List.mem_of_find?_eq_some hy)
  have h1 := List.find?_some hx
  have h2 := List.find?_some hy
  simp only [beq_iff_eq] at h1 h2
  rw [h1, h2]

theorem eq_of_blocks {l l' : List Byte} {n : Nat} (hl : l.length = 13 * n) (hl' : l'.length = 13 * n)
    (h : ∀ i, i < n → (l.drop (13 * i)).take 13 = (l'.drop (13 * i)).take 13) : l = l' := by
  apply List.ext_getElem?
  intro j
  by_cases hj : j < 13 * n
  · have hlt : j / 13 < n := by omega
    have := h (j / 13) hlt
    have h2 := congrArg (fun x => x[j % 13]?) this
    simp only [List.getElem?_take_of_lt (show j % 13 < 13 by omega), List.getElem?_drop] at h2
    rw [show 13 * (j / 13) + j % 13 = j by omega] at h2
    exact h2
  · rw [List.getElem?_eq_none (by omega), List.getElem?_eq_none (by omega)]

/-- **C08** the contents do not depend on the order or repetitions: two DSMs of the same id returned
after two histories, whose blocks since the last change of id agree wherever the numbers agree, have
the same bytes. -/
theorem C08_order_independent (hist₁ hist₂ : List DsmCall) (p₁ p₂ : DsmCall)
    (c₁ c₂ c₁' c₂' : CollectDsm) (o₁ o₂ : List (Option Dsm)) (d₁ d₂ : Dsm)
    (h₁ : feedBlocks .new hist₁ = .ok (c₁, o₁)) (h₂ : feedBlocks .new hist₂ = .ok (c₂, o₂))
    (f₁ : c₁.feed p₁.header p₁.block = .ok (c₁', some d₁))
    (f₂ : c₂.feed p₂.header p₂.block = .ok (c₂', some d₂))
    (hid : p₁.header.dsmId = p₂.header.dsmId)
    (hcons : ∀ x ∈ sinceId hist₁ p₁.header.dsmId ++ [p₁],
      ∀ y ∈ sinceId hist₂ p₂.header.dsmId ++ [p₂],
        x.header.dsmBlockId = y.header.dsmBlockId → x.block = y.block) :
    d₁ = d₂ := by
  obtain ⟨a1, a2, n, b0, a3, a4, a5, a6⟩ := C07_completed_dsm hist₁ p₁ c₁ c₁' o₁ d₁ h₁ f₁
  obtain ⟨e1, e2, m, b1, e3, e4, e5, e6⟩ := C07_completed_dsm hist₂ p₂ c₂ c₂' o₂ d₂ h₂ f₂
  have hb := firstBlock_perm hcons a3 e3
  subst hb
  rw [hid] at a4
  rw [a4] at e4; cases e4
  have hdata : d₁.data = d₂.data := by
    refine eq_of_blocks a5 e5 ?_
    intro i hi
    obtain ⟨x, hx1, hx2⟩ := a6 i hi
    obtain ⟨y, hy1, hy2⟩ := e6 i hi
    rw [hx2, hy2, firstBlock_perm hcons hx1 hy1]
  have htype : p₁.header.dsmType = p₂.header.dsmType := by simp [DsmHeader.dsmType, hid]
  obtain ⟨i1, t1, x1⟩ := d₁
  obtain ⟨i2, t2, x2⟩ := d₂
  simp only at *
  rw [a1, a2, e1, e2, hdata, hid, htype]

section Example

/-- Blocks of the example: a DSM-KROOT (id 3) of 7 blocks; block 0 announces NB = 1. -/
private def blk (i : Nat) : DsmCall :=
  ⟨⟨BitVec.ofNat 8 (3 * 16 + i)⟩,
    ⟨(if i = 0 then 0x12#8 else BitVec.ofNat 8 i) :: List.replicate 12 (BitVec.ofNat 8 (i + 1)), by simp⟩⟩

/-- Non-vacuity of C07 and C08: out of order, with a repetition. -/
example :
    (match feedBlocks .new ([5, 0, 3, 3, 6, 1, 2].map blk) with
     | .ok (c, outs) =>
       outs.all Option.isNone &&
       (match c.feed (blk 4).header (blk 4).block with
        | .ok (_, some d) => decide (d.data = ((List.range 7).map (fun i => (blk i).block.val)).flatten)
        | _ => false)
     | .panic _ => false) = true := by decide +kernel

end Example

end Verif
