import Verif.TermFlagsProps
/-! Further theorems of C17: the classes of runs in which the stars have exchanged their roles. -/
namespace Verif.TermFlags

/-- The text with the other star: `Primary` and `Secondary` at the beginning, `star 1` and `star 2` at the end. -/
def otherStar (s : String) : String :=
  let l := s.toList
  let l := if (chars! "Primary").isPrefixOf l then (chars! "Secondary") ++ l.drop 7
    else if (chars! "Secondary").isPrefixOf l then (chars! "Primary") ++ l.drop 9 else l
  let l := if (chars! "star 1").isSuffixOf l then l.dropLast ++ ['2'] else if (chars! "star 2").isSuffixOf l then l.dropLast ++ ['1'] else l
  String.ofList l

/-- C17: exchanging the stars in the termination code keeps the pool of the code, with two exceptions: overflow at the distance of L2, which is listed for star 1 only. -/
theorem C17_other_star_partial :
    (∀ t ∈ tf1Stable, otherStar t ∈ tf1Stable) ∧ (∀ t ∈ tf1Initial, otherStar t ∈ tf1Initial) ∧ (∀ t ∈ tf1Error, otherStar t ∈ tf1Error) ∧
    (∀ t ∈ tf1Unstable, otherStar t ∈ tf1Unstable ↔ t ∉ ["overflow from L2 (D_L2) distance for q(=Macc/Mdon)>1, donor is star 1",
      "overflow from L2 (D_L2) distance for q(=Macc/Mdon)<1, donor is star 1"]) ∧
    ∀ t ∈ tf1Stable ++ tf1Initial ++ tf1Error ++ tf1Unstable, otherStar (otherStar t) = t := by
  refine ⟨by decide +kernel, by decide +kernel, by decide +kernel, by decide +kernel, by decide +kernel⟩

/-- C17: therefore the class of every run with a code of the pools, but those two, does not depend on which star is called the first (the flag of
mass transfer being the same). -/
theorem C17_other_star_class (t : String) (tf2 : List Char) (ht : t ∈ tf1Stable ++ tf1Initial ++ tf1Error ++ tf1Unstable)
    (hn : t ∉ ["overflow from L2 (D_L2) distance for q(=Macc/Mdon)>1, donor is star 1", "overflow from L2 (D_L2) distance for q(=Macc/Mdon)<1, donor is star 1"]) :
    inferClass (otherStar t) tf2 = inferClass t tf2 := by
  obtain ⟨h1, h2, h3, h4, _⟩ := C17_other_star_partial
  have key : (t ∈ tf1Initial ↔ otherStar t ∈ tf1Initial) ∧ (t ∈ tf1Error ↔ otherStar t ∈ tf1Error) ∧ (t ∈ tf1Stable ↔ otherStar t ∈ tf1Stable) ∧
      (t ∈ tf1Unstable ↔ otherStar t ∈ tf1Unstable) := by
    have : ∀ t ∈ tf1Stable ++ tf1Initial ++ tf1Error ++ tf1Unstable, t ∉ ["overflow from L2 (D_L2) distance for q(=Macc/Mdon)>1, donor is star 1",
        "overflow from L2 (D_L2) distance for q(=Macc/Mdon)<1, donor is star 1"] →
        (t ∈ tf1Initial ↔ otherStar t ∈ tf1Initial) ∧ (t ∈ tf1Error ↔ otherStar t ∈ tf1Error) ∧ (t ∈ tf1Stable ↔ otherStar t ∈ tf1Stable) ∧
        (t ∈ tf1Unstable ↔ otherStar t ∈ tf1Unstable) := by decide +kernel
    exact this t ht hn
  obtain ⟨k1, k2, k3, k4⟩ := key
  unfold inferClass
  simp only [k1, k2, k3, k4]

/-- C17 violated: a run stopped by overflow at the distance of L2 is unstable mass transfer if the donor is star 1 and of unknown class if it is star 2. -/
theorem C17_other_star_violated (tf2 : List Char) (h1 : tf2 ≠ (chars! "initial_RLOF")) (h2 : tf2 ≠ (chars! "no_RLOF")) :
    inferClass "overflow from L2 (D_L2) distance for q(=Macc/Mdon)>1, donor is star 1" tf2 = .unstable ∧
    inferClass "overflow from L2 (D_L2) distance for q(=Macc/Mdon)>1, donor is star 2" tf2 = .unknown ∧
    otherStar "overflow from L2 (D_L2) distance for q(=Macc/Mdon)>1, donor is star 1" = "overflow from L2 (D_L2) distance for q(=Macc/Mdon)>1, donor is star 2" := by
  refine ⟨(C17_class _ tf2).2.2.2.2.2 ⟨by decide +kernel, h1, h2⟩, (C17_unknown _ tf2).1.2 ⟨by decide +kernel, h1, h2⟩, by decide +kernel⟩

example : (MTCase.render [2] ≠ (chars! "initial_RLOF")) ∧ MTCase.render [2] ≠ (chars! "no_RLOF") := by decide +kernel

end Verif.TermFlags
