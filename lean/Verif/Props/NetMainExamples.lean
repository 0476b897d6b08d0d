import Verif.Props.NetMain
import Verif.Props.PaddingExamples
import Verif.Proofs.ResultText

/-!
# C105 meets non-trivial cases
-/
namespace Verif
open Verif.Spec
set_option autoImplicit false

namespace Ex

/-- the defaults: some settings -/
def dfltSettings : PyDict := [(chars! "expt_name", .str (chars! "deafult")), (chars! "gpu_id", .str (chars! "0")), (chars! "num_nodes", .num 10), (chars! "num_neighbors", .num 5), (chars! "batch_size", .num 20), (chars! "learning_rate", .other (chars! "0.001"))]

/-- the settings of the network for `m` cities; the number of neighbours is there twice -/
def netSettings (m : Nat) : PyDict := [(chars! "expt_name", .str (chars! "tsp")), (chars! "num_neighbors", .num 5), (chars! "num_nodes", .num m), (chars! "num_neighbors", .num 20)]

/-- a world with these files; the medoids are the first cities; the nearest neighbours of `i` are `i + 1`, …, `i + k` -/
def netWorld (m : Nat) : NetWorld Nat where
  float := untally
  str := tally
  int t := some (digitsVal t)
  dist p q := |p.1 - q.1| + |p.2 - q.2|
  knn k _ i := (List.range k.toNat).map fun j => i + 1 + j
  cluster g k := if k ≤ g.length then .ok (g.take k) else .error .null
  json p := if p = chars! "./configs/default.json" then some dfltSettings else if p = logPath m then some (netSettings m) else none
  checkpoint p := if p = chars! "./logs/tsp/best_val_checkpoint.tar" then some 7 else none
  shuffle ls := ls.reverse

theorem nat_texts (m : Nat) : IntTexts (netWorld m).int natText := by
  intro k
  refine ⟨congrArg some (digitsVal_natText k), fun h => ?_⟩
  have := (natText_digits k).2 ' ' h
  revert this
  decide

theorem net_ready (m : Nat) : Ready (netWorld m) m dfltSettings (netSettings m) 20 7 where
  hasDflt := rfl
  hasFile := by
    have : logPath m ≠ chars! "./configs/default.json" := by unfold logPath; simp
    simp [netWorld, this]
  nodes := Or.inl ⟨[(chars! "expt_name", .str (chars! "tsp")), (chars! "num_neighbors", .num 5)], _, rfl, by simp⟩
  neighbors := Or.inl ⟨[(chars! "expt_name", .str (chars! "tsp")), (chars! "num_neighbors", .num 5), (chars! "num_nodes", .num m)], [], rfl, by simp⟩
  weights := ⟨chars! "tsp", Or.inl ⟨[], _, rfl, by simp⟩, rfl⟩
  shuffle ls := ls.reverse_perm
  int := nat_texts m

/-- many cities on a line -/
def lineOf (k : Nat) : List (ℚ × ℚ) := (List.range k).map fun i => ((i : ℚ), 0)

end Ex

/-- a setting of the network's file, one of the defaults, and one that is nowhere -/
example : Setting Ex.dfltSettings (Ex.netSettings 3) (chars! "num_neighbors") (.num 20) ∧ Setting Ex.dfltSettings (Ex.netSettings 3) (chars! "batch_size") (.num 20) ∧
    getAttr (getConfig Ex.dfltSettings (Ex.netSettings 3)) (chars! "beam_size") = .error .oob := by
  refine ⟨(Ex.net_ready 3).neighbors, Or.inr ⟨by simp [Ex.netSettings], ⟨Ex.dfltSettings.take 4, Ex.dfltSettings.drop 5, rfl, by simp [Ex.dfltSettings]⟩⟩, by decide⟩

/-- C105 for three cities and a network for three cities -/
example : ∃ r, @netMain nearest _ (Ex.netWorld 3) 3 3 (some [genLine natText (Ex.texts Ex.three) [0, 2, 1]]) [] = .ok (some r) ∧ r.sample.coord = Ex.three ∧ r.weights = 7 ∧ r.sample.edges 0 1 = 1 := by
  obtain ⟨r, e, h⟩ := @C105_same nearest _ (Ex.netWorld 3) _ _ _ _ _ Ex.three [0, 2, 1] (Ex.net_ready 3) (Ex.tally_cities Ex.three) (by decide) (by unfold IsTour; decide) []
  exact ⟨r, e, h.coord, h.weights, by rw [h.edges]; decide⟩

/-- C105 for a file with a second instance, of three other cities -/
example : ∃ r, @netMain nearest _ (Ex.netWorld 3) 3 3 (some [genLine natText (Ex.texts Ex.three) [0, 2, 1], genLine natText (Ex.texts Ex.three.reverse) [0, 1, 2]]) [] = .ok (some r) ∧ r.sample.coord = Ex.three := by
  obtain ⟨r, e, h⟩ := @C105_same_first nearest _ (Ex.netWorld 3) _ _ _ _ _ Ex.three [0, 2, 1] (Ex.net_ready 3) (Ex.tally_cities Ex.three) (by decide) (by unfold IsTour; decide) [genLine natText (Ex.texts Ex.three.reverse) [0, 1, 2]]
    (by intro l hl; rw [List.mem_singleton] at hl; exact ⟨_, _, _, hl, Ex.tally_cities Ex.three.reverse, by decide, by unfold IsTour; decide⟩) []
  exact ⟨r, e, h.coord⟩

/-- C105 for three cities and a network for twenty cities -/
example : ∃ N r ds, @netMain nearest _ (Ex.netWorld 20) 3 20 (some [genLine natText (Ex.texts Ex.three) [0, 2, 1]]) ((List.range N).map Ex.drawn) = .ok (some r) ∧ Dummies Ex.three 17 ds ∧ r.sample.coord = Ex.three ++ ds := by
  obtain ⟨rest, hr⟩ := genLine_form natText (Ex.texts Ex.three) [0, 2, 1]
  obtain ⟨N, out, e⟩ := @C99_ends_partial nearest Ex.untally Ex.tally natText _ _ (Ex.tally_cities Ex.three) (by decide) (fun _ => Ex.tally_text _) Ex.three_small 20 (by decide) (by decide) rest Ex.drawn Ex.drawn_possible fun _ h => Ex.drawn_all h
  obtain ⟨o, e1, e2⟩ := @C105_smaller_partial nearest _ (Ex.netWorld 20) 20 _ _ _ _ _ _ [0, 2, 1] (Ex.net_ready 20) (Ex.tally_cities Ex.three) (by decide) (by decide) (fun _ => Ex.tally_text _) Ex.three_small
    ((List.range N).map Ex.drawn) (by intro d hd; obtain ⟨i, -, rfl⟩ := List.mem_map.1 hd; exact Ex.drawn_possible i)
  cases o with
  | none =>
    exfalso
    have hf : @netFile nearest _ (Ex.netWorld 20) 3 20 (some [genLine natText (Ex.texts Ex.three) [0, 2, 1]]) ((List.range N).map Ex.drawn) = .ok (some [out]) := by
      unfold netFile
      rw [if_pos (by decide)]
      dsimp only
      rw [hr]
      have e : @padLine nearest (Ex.netWorld 20).float (Ex.netWorld 20).str natText 3 20 ([' '].intercalate (coordTexts (Ex.texts Ex.three)) ++ " output".toList ++ rest) ((List.range N).map Ex.drawn) = .ok (some out) := e
      rw [e]; rfl
    obtain ⟨c, -, k⟩ := @netMain_core nearest _ (Ex.netWorld 20) 3 20 _ _ _ _ (Ex.net_ready 20) _ _ _ hf
    have e1 : @netMain nearest _ (Ex.netWorld 20) 3 20 (some [genLine natText (Ex.texts Ex.three) [0, 2, 1]]) ((List.range N).map Ex.drawn) = .ok none := e1
    rw [k] at e1
    obtain ⟨s, -, h⟩ := bind_eq_ok.1 e1
    cases h
  | some r =>
    obtain ⟨ds, h1, h2⟩ := e2 r rfl
    exact ⟨N, r, ds, e1, h1, h2.coord⟩

/-- C105 for 101 cities and a network for 100 cities -/
example : ∃ r, @netMain nearest _ (Ex.netWorld 100) 101 100 (some [genLine natText (Ex.texts (Ex.lineOf 101)) []]) [] = .ok (some r) ∧ r.sample.coord = (Ex.lineOf 101).take 100 := by
  have hl : (Ex.lineOf 101).length = 101 := by simp [Ex.lineOf]
  obtain ⟨r, e, h⟩ := @C105_larger nearest _ (Ex.netWorld 100) _ _ _ _ _ _ [] (Ex.net_ready 100) (Ex.tally_cities (Ex.lineOf 101)) (by rw [hl]; decide) ((Ex.lineOf 101).take 100)
    (by show (if 100 ≤ (Ex.lineOf 101).length then .ok ((Ex.lineOf 101).take 100) else .error .null : Res (List (ℚ × ℚ))) = _; rw [if_pos (by rw [hl]; decide)]) (by rw [List.length_take, hl]; rfl) (fun q _ => ⟨Ex.tally_text _, Ex.tally_text _⟩) []
  rw [hl] at e
  exact ⟨r, e, h.coord⟩

/-- the failure for 101 cities and a network for 50 cities -/
example : ∃ e, @netMain nearest _ (Ex.netWorld 50) 101 50 (some [genLine natText (Ex.texts (Ex.lineOf 101)) []]) [] = .error e := by
  have hl : (Ex.lineOf 101).length = 101 := by simp [Ex.lineOf]
  obtain ⟨e, h⟩ := @C105_fails nearest _ (Ex.netWorld 50) 50 _ _ _ _ _ _ [] (Ex.net_ready 50) (Ex.tally_cities (Ex.lineOf 101)) (by rw [hl]; decide) (by decide) (by
    intro ms h
    have h : (if 100 ≤ (Ex.lineOf 101).length then .ok ((Ex.lineOf 101).take 100) else .error .null : Res (List (ℚ × ℚ))) = .ok ms := h
    rw [if_pos (by rw [hl]; decide)] at h
    cases h
    exact ⟨by rw [List.length_take, hl]; rfl, fun q _ => ⟨Ex.tally_text _, Ex.tally_text _⟩⟩) []
  rw [hl] at h
  exact ⟨e, h⟩

end Verif
