import Verif.Model.Gst

/-! # Specification: absolute time

Independent of the algorithms of `gst.rs`: a GST is an instant on the integer time line. -/

namespace Verif

/-- Seconds since the GST epoch (start of week 0). -/
def Gst.abs (g : Gst) : Int := (g.wn : Int) * 604800 + g.tow

/-- An absolute time that some `Gst` denotes: weeks 0 to 65535. -/
def Representable (t : Int) : Prop := 0 ≤ t ∧ t < 65536 * 604800

/-- The start of a subframe: a multiple of 30 seconds since the epoch. -/
def Gst.Aligned (g : Gst) : Prop := g.abs % 30 = 0

instance (g : Gst) : Decidable g.Aligned := inferInstanceAs (Decidable (_ = _))

theorem Gst.abs_inj {a b : Gst} (h : a.abs = b.abs) : a = b := by
  obtain ⟨wa, ta, h1, h2⟩ := a
  obtain ⟨wb, tb, h3, h4⟩ := b
  simp only [Gst.abs] at h
  have : wa = wb := by omega
  have : ta = tb := by omega
  subst_vars; rfl

theorem Gst.abs_representable (g : Gst) : Representable g.abs := by
  have := g.hwn; have := g.htow
  simp only [Representable, Gst.abs]; omega

/-- Every representable absolute time is the time of a `Gst`. -/
theorem exists_gst {t : Int} (h : Representable t) : ∃ g : Gst, g.abs = t := by
  simp only [Representable] at h
  refine ⟨⟨(t / 604800).toNat, (t % 604800).toNat, by omega, by omega⟩, ?_⟩
  simp only [Gst.abs]; omega

theorem Gst.aligned_iff (g : Gst) : g.Aligned ↔ g.tow % 30 = 0 := by
  simp only [Gst.Aligned, Gst.abs]; omega

theorem Gst.isSubframe_iff (g : Gst) : g.isSubframe = true ↔ g.Aligned := by
  simp [Gst.isSubframe, Gst.aligned_iff]

end Verif
