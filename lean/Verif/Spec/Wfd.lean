/-!
# Specification of the resolution choice
-/
namespace Verif.Wfd.Spec

/-- A resolution known to the sink: its bit number in the mask, width and height. -/
abbrev Known := Nat × Nat × Nat

/-- CEA resolutions by bit number. The Wi-Fi Display specification is not available here, so this and the
two tables below were transcribed from the tables of the sink itself: they guard the lookup code
(order, bit positions, termination), not the numbers. -/
def cea : List Known :=
  [(0, 640, 480), (1, 720, 480), (2, 720, 480), (3, 720, 576), (4, 720, 576), (5, 1280, 720), (6, 1280, 720),
   (7, 1920, 1080), (8, 1920, 1080), (9, 1920, 1080), (10, 1280, 720), (11, 1280, 720), (12, 1920, 1080),
   (13, 1920, 1080), (14, 1920, 1080), (15, 1280, 720), (16, 1920, 1080)]

/-- Handheld resolutions by bit number. -/
def hh : List Known :=
  [(0, 800, 480), (1, 800, 480), (2, 854, 480), (3, 854, 480), (4, 864, 480), (5, 864, 480), (6, 640, 360),
   (7, 640, 360), (8, 960, 540), (9, 960, 540), (10, 848, 480), (11, 848, 480)]

/-- VESA resolutions as the sink interprets the bits. (1152x854 at bits 4 and 5 and 1440x1050 at bits 16
and 17 are not usual VESA modes - those are 1152x864 and 1400x1050 -, but this could not be checked
against the specification.) -/
def vesa : List Known :=
  [(0, 800, 600), (1, 800, 600), (2, 1024, 768), (3, 1024, 768), (4, 1152, 854), (5, 1152, 854), (6, 1280, 768),
   (7, 1280, 768), (8, 1280, 800), (9, 1280, 800), (10, 1360, 768), (11, 1360, 768), (12, 1366, 768),
   (13, 1366, 768), (14, 1280, 1024), (15, 1280, 1024), (16, 1440, 1050), (17, 1440, 1050), (18, 1440, 900),
   (19, 1440, 900), (20, 1600, 900), (21, 1600, 900), (22, 1600, 1200), (23, 1600, 1200), (24, 1680, 1024),
   (25, 1680, 1024), (26, 1680, 1050), (27, 1680, 1050), (28, 1920, 1200)]

/-- `(w, h)` is the resolution of the lowest-numbered bit that is set in the mask and known. -/
def Lowest (t : List Known) (mask : Nat) (w h : Nat) : Prop :=
  ∃ b, (b, w, h) ∈ t ∧ mask.testBit b = true ∧ ∀ k ∈ t, mask.testBit k.1 = true → b ≤ k.1

/-- No bit of the mask is known. -/
def Nothing (t : List Known) (mask : Nat) : Prop := ∀ k ∈ t, mask.testBit k.1 = false

/-- The choice among the three masks as a user sees it: CEA before VESA before handheld. -/
def Chosen (c v h x y : Nat) : Prop :=
  Lowest cea c x y ∨ (Nothing cea c ∧ (Lowest vesa v x y ∨
    (Nothing vesa v ∧ Lowest hh h x y)))

end Verif.Wfd.Spec
