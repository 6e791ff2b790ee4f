import Verif.Props.Lsys
import Verif.Props.TurtleSpec
import Mathlib.Tactic.FieldSimp

/-! # C71: opposite commands of the turtle -/
namespace Verif.Props
open Verif.Lsys Verif.LsysSpec Verif.Quaternion Verif.TurtleSpec

variable {K : Type} [Field K]

namespace TurtleProof

theorem rotation_direction {s c : K} (hsc : s ^ 2 + c ^ 2 = 1) {st : State K} (h : Frame st.direction st.right) :
    Turned s c st.direction st.right ((createRotation s c st).apply st.direction) := by
  obtain ⟨h1, h2, h3⟩ := h
  have haxis : QuaternionSpec.lengthSq (Vec3.cross st.direction st.right) = 1 := by
    simp only [QuaternionSpec.lengthSq, Vec3.cross]
    linear_combination h1 * (st.right.x ^ 2 + st.right.y ^ 2 + st.right.z ^ 2) + h2 - (st.direction.x * st.right.x + st.direction.y * st.right.y + st.direction.z * st.right.z) * h3
  have hp : Vec3.dot (Vec3.cross st.direction st.right) st.direction = 0 := by simp only [Vec3.dot, Vec3.cross]; ring
  rw [createRotation, (C54_angle s c hsc _ st.direction haxis hp).2]
  simp only [Turned, Vec3.add, Vec3.scale, Vec3.cross]
  refine ⟨?_, ?_, ?_⟩
  · linear_combination 2 * s * c * (st.right.x * h1 - st.direction.x * h3)
  · linear_combination 2 * s * c * (st.right.y * h1 - st.direction.y * h3)
  · linear_combination 2 * s * c * (st.right.z * h1 - st.direction.z * h3)

theorem rotation_right {s c : K} (hsc : s ^ 2 + c ^ 2 = 1) {st : State K} (h : Frame st.direction st.right) :
    Turned (-s) c st.right st.direction ((createRotation s c st).apply st.right) := by
  obtain ⟨h1, h2, h3⟩ := h
  have haxis : QuaternionSpec.lengthSq (Vec3.cross st.direction st.right) = 1 := by
    simp only [QuaternionSpec.lengthSq, Vec3.cross]
    linear_combination h1 * (st.right.x ^ 2 + st.right.y ^ 2 + st.right.z ^ 2) + h2 - (st.direction.x * st.right.x + st.direction.y * st.right.y + st.direction.z * st.right.z) * h3
  have hp : Vec3.dot (Vec3.cross st.direction st.right) st.right = 0 := by simp only [Vec3.dot, Vec3.cross]; ring
  rw [createRotation, (C54_angle s c hsc _ st.right haxis hp).2]
  simp only [Turned, Vec3.add, Vec3.scale, Vec3.cross]
  refine ⟨?_, ?_, ?_⟩
  · linear_combination 2 * s * c * (st.right.x * h3 - st.direction.x * h2)
  · linear_combination 2 * s * c * (st.right.y * h3 - st.direction.y * h2)
  · linear_combination 2 * s * c * (st.right.z * h3 - st.direction.z * h2)

theorem turn_turn {s c : K} (hsc : s ^ 2 + c ^ 2 = 1) (st : State K) (h : Frame st.direction st.right) : turn (-s) c (turn s c st) = st := by
  have hsc' : (-s) ^ 2 + c ^ 2 = 1 := by linear_combination hsc
  obtain ⟨d1, d2, d3⟩ := rotation_direction hsc h
  obtain ⟨r1, r2, r3⟩ := rotation_right hsc h
  have h' : Frame (turn s c st).direction (turn s c st).right := LsysProof.createRotation_frame hsc h
  obtain ⟨e1, e2, e3⟩ := rotation_direction hsc' h'
  obtain ⟨q1, q2, q3⟩ := rotation_right hsc' h'
  have hk : (c ^ 2 - s ^ 2) ^ 2 + (2 * s * c) ^ 2 = 1 := by linear_combination (s ^ 2 + c ^ 2 + 1) * hsc
  rw [show (turn (-s) c (turn s c st)) = { turn s c st with
    direction := (createRotation (-s) c (turn s c st)).apply (turn s c st).direction,
    right := (createRotation (-s) c (turn s c st)).apply (turn s c st).right } from rfl]
  generalize (createRotation (-s) c (turn s c st)).apply (turn s c st).direction = d'' at e1 e2 e3
  generalize (createRotation (-s) c (turn s c st)).apply (turn s c st).right = r'' at q1 q2 q3
  simp only [turn] at e1 e2 e3 q1 q2 q3 ⊢
  rw [d1, r1] at e1 q1
  rw [d2, r2] at e2 q2
  rw [d3, r3] at e3 q3
  have hd : d'' = st.direction := by
    ext
    · linear_combination e1 + st.direction.x * hk
    · linear_combination e2 + st.direction.y * hk
    · linear_combination e3 + st.direction.z * hk
  have hr : r'' = st.right := by
    ext
    · linear_combination q1 + st.right.x * hk
    · linear_combination q2 + st.right.y * hk
    · linear_combination q3 + st.right.z * hk
  rw [hd, hr]

end TurtleProof

open TurtleProof

/-- C71: a turn to the right undoes a turn to the left, and the other way round; turning around twice changes nothing. Partial: pitch and roll are not
undone, see `C71_violated_pitch` and `C71_violated_roll`. -/
theorem C71_turns_partial (set : Settings K) (hsc : set.sinHalf ^ 2 + set.cosHalf ^ 2 = 1) :
    Undoes set (fun s => Frame s.direction s.right) .turnLeft .turnRight ∧ Undoes set (fun s => Frame s.direction s.right) .turnRight .turnLeft ∧
    Undoes set (fun s => Frame s.direction s.right) .turnAround .turnAround := by
  refine ⟨fun t h => ⟨_, rfl, ?_, rfl, rfl⟩, fun t h => ⟨_, rfl, ?_, rfl, rfl⟩, fun t h => ⟨_, rfl, ?_, rfl, rfl⟩⟩
  · have := turn_turn (s := -set.sinHalf) (c := set.cosHalf) (by linear_combination hsc) t.state h
    simpa using this
  · exact turn_turn hsc t.state h
  · have h1 := turn_turn (s := (-1 : K)) (c := 0) (by norm_num) t.state h
    have h2 : turn (-1) 0 t.state = turn (1 : K) 0 t.state := by
      have e : createRotation (-1) 0 t.state = ⟨-(createRotation 1 0 t.state).x, -(createRotation 1 0 t.state).y, -(createRotation 1 0 t.state).z, 0⟩ := by
        simp [createRotation, fromAngleAxis]
      have a : ∀ v, (createRotation (-1) 0 t.state).apply v = (createRotation (1 : K) 0 t.state).apply v := by
        intro v
        rw [e]
        simp only [Quat.apply, Quat.norm, createRotation, fromAngleAxis, Vec3.scale, Vec3.mk.injEq]
        refine ⟨?_, ?_, ?_⟩ <;> ring
      simp only [turn, a]
    rw [h2] at h1
    simpa using h1

/-- C71: from two perpendicular unit vectors, a turn moves both of them by the angle. -/
theorem C71_turn_angle (set : Settings K) (hsc : set.sinHalf ^ 2 + set.cosHalf ^ 2 = 1) (t : Turtle K) (h : Frame t.state.direction t.state.right) :
    (∃ t', step set t .turnRight = .ok t' ∧ Turned set.sinHalf set.cosHalf t.state.direction t.state.right t'.state.direction ∧
      Turned (-set.sinHalf) set.cosHalf t.state.right t.state.direction t'.state.right) ∧
    (∃ t', step set t .turnLeft = .ok t' ∧ Turned (-set.sinHalf) set.cosHalf t.state.direction t.state.right t'.state.direction ∧
      Turned set.sinHalf set.cosHalf t.state.right t.state.direction t'.state.right) ∧
    (∃ t', step set t .turnAround = .ok t' ∧ Opposite t.state.direction t'.state.direction ∧ Opposite t.state.right t'.state.right) := by
  have hneg : (-set.sinHalf) ^ 2 + set.cosHalf ^ 2 = 1 := by linear_combination hsc
  refine ⟨⟨_, rfl, rotation_direction hsc h, rotation_right hsc h⟩, ⟨_, rfl, rotation_direction hneg h, ?_⟩, ⟨_, rfl, ?_, ?_⟩⟩
  · have := rotation_right hneg h
    rw [neg_neg] at this
    exact this
  · obtain ⟨a, b, c⟩ := rotation_direction (s := (1 : K)) (c := 0) (by norm_num) h
    refine ⟨?_, ?_, ?_⟩ <;> simp only [turn]
    · rw [a]; ring
    · rw [b]; ring
    · rw [c]; ring
  · obtain ⟨a, b, c⟩ := rotation_right (s := (1 : K)) (c := 0) (by norm_num) h
    refine ⟨?_, ?_, ?_⟩ <;> simp only [turn]
    · rw [a]; ring
    · rw [b]; ring
    · rw [c]; ring

/-- C71: from two perpendicular unit vectors, pitch moves the direction and roll the vector to the right by the angle, up and down and left and right
in opposite senses; nothing else changes. -/
theorem C71_pitch_roll_angle (set : Settings K) (hsc : set.sinHalf ^ 2 + set.cosHalf ^ 2 = 1) (t : Turtle K)
    (h : Frame t.state.direction t.state.right) :
    (∃ v, step set t .pitchUp = .ok { t with state := { t.state with direction := v } } ∧ Turned set.sinHalf set.cosHalf t.state.direction t.state.right v) ∧
    (∃ v, step set t .pitchDown = .ok { t with state := { t.state with direction := v } } ∧ Turned (-set.sinHalf) set.cosHalf t.state.direction t.state.right v) ∧
    (∃ v, step set t .rollRight = .ok { t with state := { t.state with right := v } } ∧ Turned (-set.sinHalf) set.cosHalf t.state.right t.state.direction v) ∧
    (∃ v, step set t .rollLeft = .ok { t with state := { t.state with right := v } } ∧ Turned set.sinHalf set.cosHalf t.state.right t.state.direction v) := by
  have hneg : (-set.sinHalf) ^ 2 + set.cosHalf ^ 2 = 1 := by linear_combination hsc
  refine ⟨⟨_, rfl, rotation_direction hsc h⟩, ⟨_, rfl, rotation_direction hneg h⟩, ⟨_, rfl, rotation_right hsc h⟩, ⟨_, rfl, ?_⟩⟩
  simpa using rotation_right hneg h

/-- C71: making wider and thinner, longer and shorter undo each other if the scale is not zero. -/
theorem C71_scales (set : Settings K) (hs : set.scale ≠ 0) :
    Undoes set (fun _ => True) .increment .decrement ∧ Undoes set (fun _ => True) .decrement .increment ∧
    Undoes set (fun _ => True) .scaleUp .scaleDown ∧ Undoes set (fun _ => True) .scaleDown .scaleUp := by
  refine ⟨fun t _ => ⟨_, rfl, ?_, rfl, rfl⟩, fun t _ => ⟨_, rfl, ?_, rfl, rfl⟩, fun t _ => ⟨_, rfl, ?_, rfl, rfl⟩, fun t _ => ⟨_, rfl, ?_, rfl, rfl⟩⟩
  all_goals obtain ⟨⟨l, w, x, p, d, r⟩, st, y, dr⟩ := t
  all_goals simp [hs]

/-- C71: moving and jumping take the turtle forward by the length of its state, moving draws a cylinder where it was, jumping draws nothing. -/
theorem C71_forward (set : Settings K) (t : Turtle K) :
    (∃ t', step set t .jumpForward = .ok t' ∧ Ahead t.state.position t.state.direction t.state.length t'.state.position ∧ t'.drawn = t.drawn ∧
      t' = { t with state := { t.state with position := t'.state.position } }) ∧
    (∃ t' a, step set t .moveForward = .ok t' ∧ Ahead t.state.position t.state.direction t.state.length t'.state.position ∧
      t'.drawn = t.drawn ++ [(.cylinder, t.state, a)] ∧
      t' = { t with state := { t.state with position := t'.state.position }, drawn := t'.drawn }) := by
  refine ⟨⟨_, rfl, ?_, rfl, rfl⟩, ⟨_, _, rfl, ?_, rfl, rfl⟩⟩ <;>
  · refine ⟨?_, ?_, ?_⟩ <;> simp only [jump, draw, Vec3.add, Vec3.scale] <;> ring

/-- C71: going forward, turning around, going forward and turning around brings the turtle back. -/
theorem C71_there_and_back (set : Settings K) (hsc : set.sinHalf ^ 2 + set.cosHalf ^ 2 = 1) (t : Turtle K)
    (h : Frame t.state.direction t.state.right) :
    ∃ t', runRules set t [.op .jumpForward, .op .turnAround, .op .jumpForward, .op .turnAround] = .ok t' ∧ t'.state = t.state := by
  refine ⟨_, rfl, ?_⟩
  obtain ⟨-, -, ⟨t1, ht1, ⟨d1, d2, d3⟩, -⟩⟩ := C71_turn_angle set hsc { t with state := jump t.state } h
  have e1 : t1 = { t with state := turn 1 0 (jump t.state) } := by
    have : step set { t with state := jump t.state } .turnAround = .ok { t with state := turn 1 0 (jump t.state) } := rfl
    rw [this] at ht1; exact (Outcome.ok.inj ht1).symm
  subst e1
  obtain ⟨-, -, k⟩ := C71_turns_partial set hsc
  obtain ⟨t2, h2, h3, -⟩ := k { t with state := jump t.state } h
  have e2 : t2.state = turn 1 0 (turn 1 0 (jump t.state)) := by
    have : runRules set { t with state := jump t.state } [.op .turnAround, .op .turnAround] =
      .ok { t with state := turn 1 0 (turn 1 0 (jump t.state)) } := rfl
    rw [this] at h2; rw [← Outcome.ok.inj h2]
  rw [e2] at h3
  have hj : jump (turn 1 0 (jump t.state)) = { turn 1 0 (jump t.state) with position := t.state.position } := by
    have hp : (jump (turn 1 0 (jump t.state))).position = t.state.position := by
      ext
      · show t.state.position.x + t.state.direction.x * t.state.length + (turn 1 0 (jump t.state)).direction.x * t.state.length = t.state.position.x
        rw [d1]
        show t.state.position.x + t.state.direction.x * t.state.length + -t.state.direction.x * t.state.length = t.state.position.x
        ring
      · show t.state.position.y + t.state.direction.y * t.state.length + (turn 1 0 (jump t.state)).direction.y * t.state.length = t.state.position.y
        rw [d2]
        show t.state.position.y + t.state.direction.y * t.state.length + -t.state.direction.y * t.state.length = t.state.position.y
        ring
      · show t.state.position.z + t.state.direction.z * t.state.length + (turn 1 0 (jump t.state)).direction.z * t.state.length = t.state.position.z
        rw [d3]
        show t.state.position.z + t.state.direction.z * t.state.length + -t.state.direction.z * t.state.length = t.state.position.z
        ring
    rw [← hp]; rfl
  show turn 1 0 (jump (turn 1 0 (jump t.state))) = t.state
  rw [hj]
  have : turn 1 0 { turn 1 0 (jump t.state) with position := t.state.position } =
      { turn 1 0 (turn 1 0 (jump t.state)) with position := t.state.position } := rfl
  rw [this, h3]
  rfl

/-- C71: after some switches of the style a cylinder has the appearance of that number, counted modulo the number of appearances. -/
theorem C71_appearance (set : Settings K) (n : Nat) (size : K) :
    ∃ t, runRules set (initial size) (List.replicate n (.op .switchStyle) ++ [.op .moveForward]) = .ok t ∧
      ∃ st, t.drawn = [(.cylinder, st, n % set.appearances)] := by
  have key : ∀ (n k : Nat), ∃ t, runRules set { initial size with state := { (initial size).state with texture := k }, style := k }
      (List.replicate n (.op .switchStyle) ++ [.op .moveForward]) = .ok t ∧ ∃ st, t.drawn = [(.cylinder, st, (k + n) % set.appearances)] := by
    intro n
    induction n with
    | zero => exact fun k => ⟨_, rfl, _, by simp [draw, initial]; rfl⟩
    | succ n ih =>
      intro k
      obtain ⟨t, h1, st, h2⟩ := ih (k + 1)
      refine ⟨t, ?_, st, ?_⟩
      · rw [← h1]; rfl
      · rw [h2, Nat.add_right_comm, Nat.add_assoc]
  have := key n 0
  rw [Nat.zero_add] at this
  exact this

/-- C71 is false for pitch: after pitching up the axis of the rotation is shorter, so that pitching down does not lead back. -/
theorem C71_violated_pitch : ∃ set : Settings ℚ, set.sinHalf ^ 2 + set.cosHalf ^ 2 = 1 ∧
    ¬ Undoes set (fun s => Frame s.direction s.right) .pitchUp .pitchDown := by
  refine ⟨⟨3 / 5, 4 / 5, 1, 1⟩, by norm_num, fun h => ?_⟩
  obtain ⟨t, h1, h2, -⟩ := h (initial 1) (by norm_num [Frame, initial])
  have h3 := congrArg (fun s : State ℚ => s.direction.x) h2
  rw [← Outcome.ok.inj h1] at h3
  norm_num [createRotation, fromAngleAxis, Vec3.cross, initial, Quat.apply, Quat.norm, Vec3.scale] at h3

/-- C71 is false for roll in the same way. -/
theorem C71_violated_roll : ∃ set : Settings ℚ, set.sinHalf ^ 2 + set.cosHalf ^ 2 = 1 ∧
    ¬ Undoes set (fun s => Frame s.direction s.right) .rollLeft .rollRight := by
  refine ⟨⟨3 / 5, 4 / 5, 1, 1⟩, by norm_num, fun h => ?_⟩
  obtain ⟨t, h1, h2, -⟩ := h (initial 1) (by norm_num [Frame, initial])
  have h3 := congrArg (fun s : State ℚ => s.right.y) h2
  rw [← Outcome.ok.inj h1] at h3
  norm_num [createRotation, fromAngleAxis, Vec3.cross, initial, Quat.apply, Quat.norm, Vec3.scale] at h3

/-- A turtle at the start has perpendicular unit vectors, and there are settings with a proper angle and scale. -/
example : Frame (initial (1 : ℚ)).state.direction (initial (1 : ℚ)).state.right ∧ ((3 / 5 : ℚ)) ^ 2 + (4 / 5) ^ 2 = 1 := by
  norm_num [Frame, initial]

end Verif.Props
