import Verif.Props.KeyMachine
import Verif.Props.Dsm
import Verif.Spec.Broadcast

/-! # Lemmas: blocks of one DSM, and the key machine on a genuine broadcast -/

namespace Verif
open CollectSubframe CollectDsm

variable {C : Crypto}

/-! ## Blocks of one DSM -/

/-- The blocks are of the DSM `id`; those with a number within `data` are the blocks of `data`. -/
def BlocksOf (id : Nat) (data : List Byte) (ds : List DsmCall) : Prop :=
  ∀ d ∈ ds, d.header.dsmId = id ∧ (13 * d.header.dsmBlockId < data.length → d.block.val = byteField data (13 * d.header.dsmBlockId) 13)

theorem takeWhile_all {α : Type} {p : α → Bool} {l : List α} (h : ∀ x ∈ l, p x = true) : l.takeWhile p = l := by
  induction l with
  | nil => rfl
  | cons a l ih => rw [List.takeWhile_cons, if_pos (h a (by simp)), ih (fun x hx => h x (by simp [hx]))]

theorem sinceId_all {ds : List DsmCall} {id : Nat} (h : ∀ d ∈ ds, d.header.dsmId = id) : sinceId ds id = ds := by
  unfold sinceId
  rw [takeWhile_all (fun x hx => by simpa using h x (List.mem_reverse.1 hx)), List.reverse_reverse]

theorem firstBlock_of {id : Nat} {data : List Byte} {ds : List DsmCall} (h : BlocksOf id data ds) {i : Nat} {x : DsmBlock}
    (hb : firstBlock ds i = some x) (hi : 13 * i < data.length) : x.val = byteField data (13 * i) 13 := by
  simp only [firstBlock, Option.map_eq_some_iff] at hb
  obtain ⟨d, hd, rfl⟩ := hb
  have h1 := List.find?_some hd
  have h2 := (h d (List.mem_of_find?_eq_some hd)).2
  simp only [beq_iff_eq] at h1
  rw [h1] at h2
  exact h2 hi

theorem firstBlock_isSome {ds : List DsmCall} {i : Nat} : (firstBlock ds i).isSome = true ↔ ∃ d ∈ ds, d.header.dsmBlockId = i := by
  simp [firstBlock, Option.isSome_map, List.find?_isSome]

/-- The NB field. -/
theorem firstNibble {data : List Byte} {x : DsmBlock} (hx : x.val = byteField data 0 13) (hlen : 0 < data.length) :
    (x.val.headD 0).toNat / 16 = bitField data 0 4 := by
  rw [hx]
  cases data with
  | nil => simp at hlen
  | cons a l =>
    show a.toNat / 16 = loadBe (((bitsOf (a :: l)).drop 0).take 4)
    have : ((bitsOf (a :: l)).drop 0).take 4 = (byteBits a).take 4 := by
      rw [List.drop_zero, show a :: l = [a] ++ l from rfl, bitsOf_append,
        List.take_append_of_le_length (by rw [bitsOf_length]; simp)]
      simp [bitsOf]
    rw [this]
    exact (by decide +kernel : ∀ a : Byte, a.toNat / 16 = loadBe ((byteBits a).take 4)) a

/-- The number of blocks announced by the first block. -/
theorem announcedBlocks_of {data : List Byte} {id : Nat} {x : DsmBlock} (hid : id < 12)
    (hx : x.val = byteField data 0 13) (hsize : data.length = 13 * (bitField data 0 4 + 6)) (hmin : 7 ≤ bitField data 0 4 + 6)
    (hmax : bitField data 0 4 + 6 ≤ 14) : announcedBlocks id x = some (bitField data 0 4 + 6) := by
  unfold announcedBlocks
  dsimp only
  rw [firstNibble hx (by omega), if_neg (by omega), if_pos (by omega)]

/-- The first block of `data` announces `n` blocks, which is the size of `data`. -/
structure Announces (id : Nat) (data : List Byte) (n : Nat) : Prop where
  pos : 0 < n
  size : data.length = 13 * n
  first : ∀ x : DsmBlock, x.val = byteField data 0 13 → announcedBlocks id x = some n

theorem Announces.kroot {id : Nat} {data : List Byte} (hid : id < 12) (hsize : data.length = 13 * (bitField data 0 4 + 6))
    (hmin : 7 ≤ bitField data 0 4 + 6) (hmax : bitField data 0 4 + 6 ≤ 14) : Announces id data (bitField data 0 4 + 6) :=
  ⟨by omega, hsize, fun _ hx => announcedBlocks_of hid hx hsize hmin hmax⟩

theorem Announces.pkr {id : Nat} {data : List Byte} (hid : 12 ≤ id) (hsize : data.length = 13 * (bitField data 0 4 + 6))
    (hmin : 7 ≤ bitField data 0 4) (hmax : bitField data 0 4 ≤ 10) : Announces id data (bitField data 0 4 + 6) :=
  ⟨by omega, hsize, fun x hx => by
    unfold announcedBlocks
    dsimp only
    rw [firstNibble hx (by omega), if_pos hid, if_pos (by omega)]⟩

/-- Such blocks are complete exactly if each number occurs. -/
theorem complete_iff_gen {id n : Nat} {data : List Byte} {ds : List DsmCall} (h : BlocksOf id data ds) (ha : Announces id data n) :
    Complete id ds ↔ ∀ i, 13 * i < data.length → ∃ d ∈ ds, d.header.dsmBlockId = i := by
  have hpos := ha.pos
  have hsize := ha.size
  constructor
  · rintro ⟨m, b0, h1, h2, h3⟩ i hi
    rw [ha.first _ (by simpa using firstBlock_of h h1 (by omega))] at h2
    cases h2
    exact firstBlock_isSome.1 (h3 i (by omega))
  · intro hall
    obtain ⟨b0, hb0⟩ := Option.isSome_iff_exists.1 (firstBlock_isSome.2 (hall 0 (by omega)))
    refine ⟨n, b0, hb0, ha.first _ (by simpa using firstBlock_of h hb0 (by omega)), ?_⟩
    intro i hi
    exact firstBlock_isSome.2 (hall i (by omega))

theorem complete_iff {id : Nat} {data : List Byte} {ds : List DsmCall} (h : BlocksOf id data ds) (hid : id < 12)
    (hsize : data.length = 13 * (bitField data 0 4 + 6)) (hmin : 7 ≤ bitField data 0 4 + 6) (hmax : bitField data 0 4 + 6 ≤ 14) :
    Complete id ds ↔ ∀ i, 13 * i < data.length → ∃ d ∈ ds, d.header.dsmBlockId = i :=
  complete_iff_gen h (.kroot hid hsize hmin hmax)

/-- What is completed is the data. -/
theorem completes_of_gen {id n : Nat} {data : List Byte} {ds : List DsmCall} {p : DsmCall} (ha : Announces id data n)
    (hp : p.header.dsmId = id) (h : BlocksOf id data (sinceId ds id ++ [p])) (x : List Byte) :
    CompletesDsmWith ds p x ↔ x = data ∧ ¬ Complete id (sinceId ds id) ∧ Complete id (sinceId ds id ++ [p]) := by
  have hpos := ha.pos
  have hsize := ha.size
  have key : ∀ m, CompleteWith id (sinceId ds id ++ [p]) m → m = n := by
    rintro m ⟨b0, h1, h2, h3⟩
    rw [ha.first _ (by simpa using firstBlock_of h h1 (by omega))] at h2
    cases h2; rfl
  constructor
  · rintro ⟨h1, m, h2, h3, h4⟩
    rw [hp] at h1 h2 h4
    have hn := key m h2
    refine ⟨eq_of_blocks (n := m) h3 (by rw [hsize, hn]) ?_, h1, m, h2⟩
    intro i hi
    obtain ⟨y, e1, e2⟩ := h4 i hi
    have := firstBlock_of h e1 (by omega)
    unfold byteField at e2 this
    rw [e2, this]
  · rintro ⟨rfl, h1, m, h2⟩
    have hn := key m h2
    refine ⟨by rw [hp]; exact h1, m, by rw [hp]; exact h2, by rw [hn]; exact hsize, ?_⟩
    intro i hi
    rw [hp]
    obtain ⟨b0, _, _, e3⟩ := h2
    obtain ⟨y, hy⟩ := Option.isSome_iff_exists.1 (e3 i hi)
    exact ⟨y, hy, (firstBlock_of h hy (by omega)).symm⟩

theorem completes_of {id : Nat} {data : List Byte} {ds : List DsmCall} {p : DsmCall} (hid : id < 12)
    (hsize : data.length = 13 * (bitField data 0 4 + 6)) (hmin : 7 ≤ bitField data 0 4 + 6) (hmax : bitField data 0 4 + 6 ≤ 14)
    (hp : p.header.dsmId = id) (h : BlocksOf id data (sinceId ds id ++ [p])) (x : List Byte) :
    CompletesDsmWith ds p x ↔ x = data ∧ ¬ Complete id (sinceId ds id) ∧ Complete id (sinceId ds id ++ [p]) :=
  completes_of_gen (.kroot hid hsize hmin hmax) hp h x

theorem SignedKroot.size {pk : VerifyingKey C} {h : NmaHeader} {data : List Byte} {f : EcdsaFunction} {n : Nat}
    (hs : SignedKroot C pk h data f n) (hsize : data.length = 13 * (bitField data 0 4 + 6)) :
    7 ≤ bitField data 0 4 + 6 ∧ bitField data 0 4 + 6 ≤ 14 := by
  have h1 := hs.fits
  have h2 := hs.minimal
  have hn : 12 ≤ n ∧ n ≤ 32 := by
    have := hs.ks
    unfold icdKeyBytes at this
    have hm := List.mem_of_getElem? this
    simp at hm
    omega
  have hf : icdSigBytes f = 64 ∨ icdSigBytes f = 132 := by cases f <;> simp [icdSigBytes]
  omega

end Verif
