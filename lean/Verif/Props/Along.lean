import Mathlib.Tactic.Ring
import Mathlib.Tactic.FieldSimp
import Mathlib.Tactic.Linarith
import Mathlib.Tactic.Conv
import Mathlib.Tactic.NormNum
import Mathlib.Algebra.Order.Floor.Ring
import Mathlib.Data.Rat.Floor
import Mathlib.Data.Rat.Cast.Order
import Mathlib.Analysis.SpecialFunctions.Sqrt
import Verif.Props.AlongSpec
import Verif.Props.Building

/-! # Objects along ways (C80) -/
namespace Verif.Props
open Verif.MeshBuilder Verif.ShownSpec Verif.Along Verif.AlongSpec Verif.MeshSpec
set_option linter.unusedSectionVars false
namespace AlongProof
open BuildingProof ShownProof

/-! ### What a mesh shows is unique -/

theorem shows_exists {α : Type} (m : Mesh α) (n : Nat) (h : WellFormed m n) : ∃ ts, Shows m ts := by
  have corner : ∀ i < n, ∃ c, CornerAt m i c := by
    intro i hi
    have hv := h.vertices
    have hc := h.colors
    have hu := h.uvs
    refine ⟨⟨⟨m.vertices[3 * i], m.vertices[3 * i + 2], m.vertices[3 * i + 1]⟩, m.colors[i], ⟨m.uvs[2 * i], m.uvs[2 * i + 1]⟩⟩, ?_, ?_, ?_, ?_, ?_, ?_⟩ <;> simp
  have key : ∀ (k : Nat) (l : List Int), l.length = 3 * k → (∀ t ∈ l, 0 ≤ t ∧ t < (n : Int)) → ∃ (indices : List (Nat × Nat × Nat)) (ts : List (Triangle α)),
      l = indices.flatMap (fun i => [(i.1 : Int), (i.2.1 : Int), (i.2.2 : Int)]) ∧
      List.Forall₂ (fun i t => CornerAt m i.1 t.1 ∧ CornerAt m i.2.1 t.2.1 ∧ CornerAt m i.2.2 t.2.2) indices ts := by
    intro k
    induction k with
    | zero => intro l hl _; exact ⟨[], [], by simp [List.length_eq_zero_iff.1 (by simpa using hl)], .nil⟩
    | succ k ih =>
      intro l hl hr
      match l, hl, hr with
      | a :: b :: c :: l, hl, hr =>
        simp only [List.length_cons] at hl
        obtain ⟨indices, ts, h1, h2⟩ := ih l (by omega) (fun t ht => hr t (by simp [ht]))
        obtain ⟨a0, a1⟩ := hr a (by simp)
        obtain ⟨b0, b1⟩ := hr b (by simp)
        obtain ⟨c0, c1⟩ := hr c (by simp)
        obtain ⟨ca, ha⟩ := corner a.toNat (by omega)
        obtain ⟨cb, hb⟩ := corner b.toNat (by omega)
        obtain ⟨cc, hc⟩ := corner c.toNat (by omega)
        refine ⟨(a.toNat, b.toNat, c.toNat) :: indices, (ca, cb, cc) :: ts, ?_, .cons ⟨ha, hb, hc⟩ h2⟩
        simp only [List.flatMap_cons, ← h1, List.cons_append, List.nil_append, List.cons.injEq, and_true]
        omega
      | [], hl, _ => simp at hl
      | [_], hl, _ => simp at hl; omega
      | [_, _], hl, _ => simp at hl; omega
  obtain ⟨k, hk⟩ := h.triangles
  obtain ⟨indices, ts, h1, h2⟩ := key k m.triangles hk h.range
  exact ⟨ts, indices, h1, h2⟩

theorem corner_unique {α : Type} {m : Mesh α} {i : Nat} {c d : Corner α} (hc : CornerAt m i c) (hd : CornerAt m i d) : c = d := by
  obtain ⟨⟨x, y, z⟩, k, ⟨u, v⟩⟩ := c
  obtain ⟨⟨x', y', z'⟩, k', ⟨u', v'⟩⟩ := d
  have := hc.east.symm.trans hd.east
  have := hc.north.symm.trans hd.north
  have := hc.up.symm.trans hd.up
  have := hc.color.symm.trans hd.color
  have := hc.u.symm.trans hd.u
  have := hc.v.symm.trans hd.v
  simp_all

theorem shows_unique {α : Type} {m : Mesh α} {ts us : List (Triangle α)} (ht : Shows m ts) (hu : Shows m us) : ts = us := by
  obtain ⟨i, hi, fi⟩ := ht
  obtain ⟨j, hj, fj⟩ := hu
  have hij : i = j := by
    rw [hi] at hj
    clear hi fi fj
    induction i generalizing j with
    | nil =>
      cases j with
      | nil => rfl
      | cons b j => simp at hj
    | cons a i ih =>
      cases j with
      | nil => simp at hj
      | cons b j =>
        simp only [List.flatMap_cons, List.cons_append, List.nil_append, List.cons.injEq, Int.natCast_inj] at hj
        obtain ⟨h1, h2, h3, h4⟩ := hj
        rw [ih j h4, Prod.ext_iff.2 ⟨h1, Prod.ext_iff.2 ⟨h2, h3⟩⟩]
  subst hij
  clear hi hj
  induction fi generalizing us with
  | nil => cases fj; rfl
  | cons h _ ih =>
    cases fj with
    | cons h' fj' =>
      rw [ih fj', Prod.ext_iff.2 ⟨corner_unique h.1 h'.1, Prod.ext_iff.2 ⟨corner_unique h.2.1 h'.2.1, corner_unique h.2.2 h'.2.2⟩⟩]

/-! ### Textures of copies -/

/-- The triangles of a copy have the textures of the triangles which are copied. -/
theorem paints_copy {α : Type} [Add α] {source destination : Mesh α} {k n : Nat} (hk : WellFormed source k) (hn : WellFormed destination n)
    {ts td : List (Triangle α × Texture)} (hs : Paints source ts []) (hd : Paints destination td []) (offset : Vec3 α) {m' : Mesh α}
    (h : copyMesh offset source destination = .ok m') :
    Paints m' (td ++ ts.map fun t => ((t.1.1.move offset, t.1.2.1.move offset, t.1.2.2.move offset), t.2)) [] := by
  obtain ⟨rs, ids, idr, hms, hts, hfs, hrs⟩ := hs
  obtain ⟨rd, jds, jdr, hmd, htd, hfd, hrd⟩ := hd
  cases hrs
  cases hrd
  obtain ⟨m'', r', h1, -, hm, hold, hnew⟩ := C44_copy offset source destination k hk rs rd hms hmd
  rw [h] at h1
  cases h1
  rw [MeshProof.copyMesh_eq offset hk] at h
  cases h
  rw [List.append_nil] at hts htd
  have hlen : destination.uvs.length = 2 * n := by have := hn.uvs; omega
  have move : ∀ {j : Nat} {c : Corner α}, CornerAt source j c → CornerAt (⟨destination.vertices ++ moved offset source.vertices,
      destination.triangles ++ source.triangles.map (· + nextIndex destination), destination.colors ++ source.colors,
      destination.uvs ++ source.uvs, destination.uvMap ++ shiftMap (destination.uvs.length : Int) source.uvMap⟩ : Mesh α) (n + j) (c.move offset) := by
    intro j c hc
    refine CornerAt.new hn rfl rfl rfl ?_ ?_ ?_ hc.color hc.u hc.v
    · rw [ShownProof.moved_get offset _ _ _ hc.east, if_pos (by omega)]; rfl
    · rw [ShownProof.moved_get offset _ _ _ hc.north, if_neg (by omega), if_pos (by omega)]; rfl
    · rw [ShownProof.moved_get offset _ _ _ hc.up, if_neg (by omega), if_neg (by omega)]; rfl
  have old : ∀ {s : Texture} {i : Nat}, TexturedBy rd s i → TexturedBy r' s i := by
    intro s i ⟨h1, h2⟩
    exact ⟨by rw [hold _ (lt_covered hmd.sorted h1), h1], by rw [hold _ (lt_covered hmd.sorted h2), h2]⟩
  have new : ∀ {s : Texture} {i : Nat}, TexturedBy rs s i → TexturedBy r' s (n + i) := by
    intro s i ⟨h1, h2⟩
    exact ⟨by rw [Nat.mul_add, ← hlen, hnew, h1], by rw [Nat.mul_add, ← hlen, Nat.add_assoc, hnew, h2]⟩
  refine ⟨r', jds ++ ids.map (fun i => (n + i.1, n + i.2.1, n + i.2.2)), [], hm, ?_, List.rel_append (hfd.imp ?_) ?_, .nil⟩
  · simp only [hts, htd, MeshProof.nextIndex_eq hn, List.append_nil, List.flatMap_append, List.append_cancel_left_eq]
    rw [List.map_flatMap, List.flatMap_map]
    congr 1
    funext i
    simp [Int.add_comm]
  · intro i x ⟨h1, h2, h3, h4⟩
    exact ⟨TriangleAt.append h1 ⟨_, rfl⟩ ⟨_, rfl⟩ ⟨_, rfl⟩, old h2, old h3, old h4⟩
  · rw [List.forall₂_map_left_iff, List.forall₂_map_right_iff]
    refine hfs.imp ?_
    intro i x ⟨h1, h2, h3, h4⟩
    exact ⟨⟨move h1.1, move h1.2.1, move h1.2.2⟩, new h2, new h3, new h4⟩

variable {K : Type} [Field K] [LinearOrder K] [IsStrictOrderedRing K]

/-! ### Copies -/

/-- A well formed mesh which shows these triangles, with these textures if `b` holds. -/
def Nice (b : Prop) (m : Mesh K) (ts : List (Triangle K × Texture)) : Prop := Built m ∧ Shows m (ts.map Prod.fst) ∧ (b → Paints m ts [])

variable {b : Prop}

theorem copyTo_good (w : World K) (origin : Geo K) {source : Mesh K} {ts : List (Triangle K × Texture)} (hs : Nice b source ts) {m : Mesh K}
    {td : List (Triangle K × Texture)} (h : Nice b m td) (spot : Geo K) :
    ∃ m', copyTo w origin source m spot = .ok m' ∧ Nice b m' (td ++ ts.map (standTextured w.elevation origin spot)) ∧
      m'.vertices.length = m.vertices.length + source.vertices.length := by
  obtain ⟨k, hk⟩ := C43_well_formed source hs.1
  obtain ⟨n, hn⟩ := C43_well_formed m h.1
  obtain ⟨m', h1, h2⟩ := C73_copy source m k n hk hn _ _ hs.2.1 h.2.1 ⟨spot.lon - origin.lon, w.elevation spot, spot.lat - origin.lat⟩
  have c : ∀ c : Corner K, c.move ⟨spot.lon - origin.lon, w.elevation spot, spot.lat - origin.lat⟩ = standCorner w.elevation origin spot c := by
    intro c
    unfold Corner.move standCorner
    congr 2 <;> ring
  refine ⟨m', h1, ⟨.copy _ hs.1 h.1 h1, ?_, ?_⟩, ?_⟩
  · simp only [c, List.map_map] at h2
    rw [List.map_append, List.map_map]
    exact h2
  · intro hb
    have := paints_copy hk hn (hs.2.2 hb) (h.2.2 hb) ⟨spot.lon - origin.lon, w.elevation spot, spot.lat - origin.lat⟩ h1
    simp only [c] at this
    exact this
  · rw [MeshProof.copyMesh_eq _ hk] at h1
    cases h1
    simp [MeshProof.moved_length]

/-- Copies at some spots, one after the other. -/
theorem copies_good {β : Type} (w : World K) (origin : Geo K) {source : Mesh K} {ts : List (Triangle K × Texture)} (hs : Nice b source ts) (spot : β → Geo K) (l : List β)
    {m : Mesh K} {td : List (Triangle K × Texture)} (h : Nice b m td) :
    ∃ m', foldO (fun m b => copyTo w origin source m (spot b)) m l = .ok m' ∧
      Nice b m' (td ++ (l.map spot).flatMap fun s => ts.map (standTextured w.elevation origin s)) ∧
      m'.vertices.length = m.vertices.length + l.length * source.vertices.length := by
  induction l generalizing m td with
  | nil => exact ⟨m, rfl, by simpa using h, by simp⟩
  | cons b l ih =>
    obtain ⟨m1, h1, g1, v1⟩ := copyTo_good w origin hs h (spot b)
    obtain ⟨m2, h2, g2, v2⟩ := ih g1
    refine ⟨m2, by simp only [foldO, h1, Outcome.bind, h2], ?_, ?_⟩
    · rwa [List.map_cons, List.flatMap_cons, ← List.append_assoc]
    · rw [v2, v1, List.length_cons]; ring

variable [FloorRing K]

/-- The number of copies. -/
theorem divInt_fits (d step : K) (hs : 0 < step) (h0 : 0 ≤ d) (h1 : d < 2 ^ 31 * step) : ∃ count : Nat, divInt d step = .ok (count : Int) ∧ Fits step d count := by
  have hq : 0 ≤ d / step := div_nonneg h0 hs.le
  have hlt : d / step < ((2 ^ 31 : Int) : K) := by
    rw [div_lt_iff₀ hs]; norm_num at h1 ⊢; exact h1
  have hf0 : 0 ≤ ⌊d / step⌋ := Int.floor_nonneg.2 hq
  have hf1 : ⌊d / step⌋ < 2 ^ 31 := Int.floor_lt.2 hlt
  have hcast : ((⌊d / step⌋.toNat : Nat) : Int) = ⌊d / step⌋ := Int.toNat_of_nonneg hf0
  have hcastK : ((⌊d / step⌋.toNat : Nat) : K) = (⌊d / step⌋ : K) := by
    conv_rhs => rw [← hcast]
    rw [Int.cast_natCast]
  refine ⟨⌊d / step⌋.toNat, ?_, ?_, ?_⟩
  · unfold divInt
    simp only [if_pos hq, if_neg hs.ne']
    rw [if_pos ⟨by omega, hf1⟩, hcast]
  · rw [hcastK]
    exact (le_div_iff₀ hs).1 (Int.floor_le _)
  · rw [hcastK]
    exact (div_lt_iff₀ hs).1 (Int.lt_floor_add_one _)

theorem newPoint_eq (p q : Geo K) (r : K) : newPoint p q r = share p q r := by
  unfold newPoint share
  congr 1 <;> ring

theorem along_good (w : World K) (origin p q : Geo K) (step : K) (hs : 0 < step) (h0 : 0 ≤ w.distance p q) (h1 : w.distance p q < 2 ^ 31 * step)
    {source : Mesh K} {ts : List (Triangle K × Texture)} (hg : Nice b source ts) {m : Mesh K} {td : List (Triangle K × Texture)} (h : Nice b m td) :
    ∃ (count : Nat) (m' : Mesh K), Fits step (w.distance p q) count ∧ copyMeshAlong w origin p q source m step = .ok m' ∧
      Nice b m' (td ++ (spots p q count).flatMap fun s => ts.map (standTextured w.elevation origin s)) ∧
      m'.vertices.length = m.vertices.length + (spots p q count).length * source.vertices.length := by
  obtain ⟨count, hc, hf⟩ := divInt_fits (w.distance p q) step hs h0 h1
  obtain ⟨m', h1, g, v⟩ := copies_good w origin hg (fun j : Nat => share p q ((j : K) / (count : K))) (List.range count) h
  refine ⟨count, m', hf, ?_, g, ?_⟩
  · unfold copyMeshAlong
    simp only [hc, Outcome.bind, newPoint_eq, Int.toNat_natCast, Int.cast_natCast]
    exact h1
  · rw [v]; simp [spots]

/-- A spot beside the way. -/
theorem beside (w : World K) (hq : ∀ x, 0 ≤ x → 0 ≤ w.sqrt x ∧ w.sqrt x * w.sqrt x = x) (he : 0 ≤ w.epsilon) (p q : Geo K) (width : K) (hw : 0 < width)
    (hd : w.epsilon < w.sqrt ((q.lon - p.lon) * (q.lon - p.lon) + (q.lat - p.lat) * (q.lat - p.lat))) (count j : Nat) :
    Beside p q width count j (lampPosition w width p q (count : Int) j) := by
  have hr := hq ((q.lon - p.lon) * (q.lon - p.lon) + (q.lat - p.lat) * (q.lat - p.lat)) (add_nonneg (mul_self_nonneg _) (mul_self_nonneg _))
  have hn : normalized w ⟨q.lon - p.lon, q.lat - p.lat⟩ = ⟨(q.lon - p.lon) / w.sqrt ((q.lon - p.lon) * (q.lon - p.lon) + (q.lat - p.lat) * (q.lat - p.lat)),
      (q.lat - p.lat) / w.sqrt ((q.lon - p.lon) * (q.lon - p.lon) + (q.lat - p.lat) * (q.lat - p.lat))⟩ := by
    unfold normalized; simp only; rw [if_pos hd]
  generalize w.sqrt ((q.lon - p.lon) * (q.lon - p.lon) + (q.lat - p.lat) * (q.lat - p.lat)) = l at *
  have hl : 0 < l := lt_of_le_of_lt he hd
  have hl' : l ≠ 0 := hl.ne'
  have e1 : ∀ sx sy : K, (share p q ((j : K) / (count : K))).lon + sx * width - (share p q ((j : K) / (count : K))).lon = sx * width ∧
      (share p q ((j : K) / (count : K))).lat + sy * width - (share p q ((j : K) / (count : K))).lat = sy * width := by
    intro sx sy; exact ⟨by ring, by ring⟩
  have key : ∃ s : K, s = (if j % 2 = 0 then 1 else -1) ∧
      (lampPosition w width p q (count : Int) j).lon - (share p q ((j : K) / (count : K))).lon = - s * ((q.lat - p.lat) / l) * width ∧
      (lampPosition w width p q (count : Int) j).lat - (share p q ((j : K) / (count : K))).lat = s * ((q.lon - p.lon) / l) * width := by
    refine ⟨_, rfl, ?_⟩
    unfold lampPosition
    simp only [hn, newPoint_eq, Int.cast_natCast]
    generalize (j : K) / (count : K) = r
    split <;> (constructor <;> (unfold share; simp only; ring))
  obtain ⟨s, hs, k1, k2⟩ := key
  have hs2 : s * s = 1 := by rw [hs]; split <;> ring
  refine ⟨?_, ?_, ?_⟩
  · rw [k1, k2]; ring
  · rw [k1, k2]
    have : -s * ((q.lat - p.lat) / l) * width * (-s * ((q.lat - p.lat) / l) * width) + s * ((q.lon - p.lon) / l) * width * (s * ((q.lon - p.lon) / l) * width) =
        (s * s) * (width * width) * (((q.lon - p.lon) * (q.lon - p.lon) + (q.lat - p.lat) * (q.lat - p.lat)) / (l * l)) := by field_simp; ring
    rw [this, hs2, ← hr.2, div_self (mul_ne_zero hl' hl')]; ring
  · rw [k1, k2]
    have e : (q.lon - p.lon) * (s * ((q.lon - p.lon) / l) * width) - (q.lat - p.lat) * (-s * ((q.lat - p.lat) / l) * width) = s * (width * l) := by
      have : (q.lon - p.lon) * (s * ((q.lon - p.lon) / l) * width) - (q.lat - p.lat) * (-s * ((q.lat - p.lat) / l) * width) =
          s * width * (((q.lon - p.lon) * (q.lon - p.lon) + (q.lat - p.lat) * (q.lat - p.lat)) / l) := by field_simp; ring
      rw [this, ← hr.2]; field_simp
    rw [e]
    have hpos : 0 < width * l := mul_pos hw hl
    split
    · rename_i h; rw [hs, if_pos h]; linarith
    · rename_i h; rw [hs, if_neg h]; linarith

theorem forall₂_map {β γ : Type} (R : β → γ → Prop) (f : β → γ) (l : List β) (h : ∀ b ∈ l, R b (f b)) : List.Forall₂ R l (l.map f) := by
  induction l with
  | nil => exact .nil
  | cons b l ih => exact .cons (h b (by simp)) (ih fun b hb => h b (by simp [hb]))

/-- A loop over the parts of a way which puts copies at the spots of a row for each. -/
theorem rows_good (w : World K) (R : Geo K × Geo K → List (Geo K) → Prop) {single : Mesh K} {ts : List (Triangle K × Texture)}
    (step : Mesh K → Geo K × Geo K → Outcome (Mesh K)) (l : List (Geo K × Geo K))
    (hstep : ∀ p ∈ l, ∀ m td, Nice b m td → ∃ m' row, R p row ∧ step m p = .ok m' ∧ Nice b m' (td ++ row.flatMap fun s => ts.map (standTextured w.elevation w.center s)) ∧
      m'.vertices.length = m.vertices.length + row.length * single.vertices.length) {m : Mesh K} {td : List (Triangle K × Texture)} (h : Nice b m td) :
    ∃ m' rows, List.Forall₂ R l rows ∧ foldO step m l = .ok m' ∧ Nice b m' (td ++ rows.flatten.flatMap fun s => ts.map (standTextured w.elevation w.center s)) ∧
      m'.vertices.length = m.vertices.length + rows.flatten.length * single.vertices.length := by
  induction l generalizing m td with
  | nil => exact ⟨m, [], .nil, rfl, by simpa using h, by simp⟩
  | cons p l ih =>
    obtain ⟨m1, row, r1, h1, g1, v1⟩ := hstep p (by simp) m td h
    obtain ⟨m2, rows, r2, h2, g2, v2⟩ := ih (fun p hp => hstep p (by simp [hp])) g1
    refine ⟨m2, row :: rows, .cons r1 r2, by simp only [foldO, h1, Outcome.bind, h2], ?_, ?_⟩
    · rwa [List.flatten_cons, List.flatMap_append, ← List.append_assoc]
    · rw [v2, v1, List.flatten_cons, List.length_append]; ring

theorem lampPair_good (w : World K) (hq : ∀ x, 0 ≤ x → 0 ≤ w.sqrt x ∧ w.sqrt x * w.sqrt x = x) (he : 0 ≤ w.epsilon) (style : PlantStyle K) (p : Geo K × Geo K)
    (hs : 0 < style.step) (h0 : 0 ≤ w.distance p.1 p.2) (h1 : w.distance p.1 p.2 < 2 ^ 31 * style.step)
    (hd : 0 < style.width → style.step ≤ w.distance p.1 p.2 → w.epsilon < w.sqrt ((p.2.lon - p.1.lon) * (p.2.lon - p.1.lon) + (p.2.lat - p.1.lat) * (p.2.lat - p.1.lat)))
    {single : Mesh K} {ts : List (Triangle K × Texture)} (hg : Nice b single ts) (m : Mesh K) (td : List (Triangle K × Texture)) (h : Nice b m td) :
    ∃ m' row, Row w .lamp style p row ∧ lampPair w style single m p = .ok m' ∧
      Nice b m' (td ++ row.flatMap fun s => ts.map (standTextured w.elevation w.center s)) ∧ m'.vertices.length = m.vertices.length + row.length * single.vertices.length := by
  obtain ⟨count, hc, hf⟩ := divInt_fits (w.distance p.1 p.2) style.step hs h0 h1
  unfold lampPair
  simp only [hc, Outcome.bind]
  by_cases hz : (count : Int) = 0
  · rw [if_pos hz]
    have hz' : count = 0 := by omega
    refine ⟨m, [], ⟨count, hf, ?_⟩, rfl, by simpa using h, by simp⟩
    subst hz'
    split
    · exact .nil
    · rfl
  · rw [if_neg hz]
    by_cases hw : 0 < style.width
    · rw [if_pos hw]
      have hstep : style.step ≤ w.distance p.1 p.2 := by
        have h1 : (1 : K) ≤ (count : K) := by exact_mod_cast (show 1 ≤ count by omega)
        have h2 := hf.1
        nlinarith
      obtain ⟨m', e, g, v⟩ := copies_good w w.center hg (fun j : Nat => lampPosition w style.width p.1 p.2 (count : Int) (j + 1)) (List.range (count - 2)) h
      refine ⟨m', _, ⟨count, hf, ?_⟩, ?_, g, by rw [v]; simp⟩
      · rw [if_pos ⟨rfl, hw⟩]
        exact forall₂_map _ _ _ fun i _ => beside w hq he p.1 p.2 style.width hw (hd hw hstep) count (i + 1)
      · have : ((count : Int) - 2).toNat = count - 2 := by omega
        rw [this]; exact e
    · rw [if_neg hw]
      obtain ⟨count', m', hf', e, g, v⟩ := along_good w w.center p.1 p.2 style.step hs h0 h1 hg h
      refine ⟨m', _, ⟨count', hf', ?_⟩, e, g, v⟩
      rw [if_neg (by simp [hw])]

theorem nice_empty : Nice b ({} : Mesh K) [] :=
  ⟨.empty, ⟨[], rfl, .nil⟩, fun _ => ⟨[], [], [], ⟨rfl, by simp, by simp⟩, rfl, .nil, .nil⟩⟩

theorem pairsOf_eq (cs : List (Geo K)) (h : cs ≠ []) : pairsOf cs = .ok (parts cs) := by
  cases cs with
  | nil => exact absurd rfl h
  | cons c cs => rfl

/-- The meshes for one way. -/
theorem way_good (w : World K) (hq : ∀ x, 0 ≤ x → 0 ≤ w.sqrt x ∧ w.sqrt x * w.sqrt x = x) (he : 0 ≤ w.epsilon) (kind : Kind) (style : Element (Geo K) → PlantStyle K)
    (id : UInt64) (tags : List Tag) (cs : List (Geo K)) (h : Plantable w kind style (.way id tags cs)) :
    ∃ ds, single w kind (style (.way id tags cs)) id (.inl cs) = .ok ds ∧ Delivers w kind style (.way id tags cs) ds := by
  obtain ⟨hne, hs, ⟨one, hone, hb⟩, hd, hl⟩ := h
  obtain ⟨n, hn⟩ := C43_well_formed one hb
  obtain ⟨ds, hg⟩ : ∃ ds, Nice (∃ ss, Paints one ss []) one ds := by
    by_cases hp : ∃ ss, Paints one ss []
    · obtain ⟨ss, hss⟩ := hp
      exact ⟨ss, hb, by simpa using C73_paints_shows one ss [] hss, fun _ => hss⟩
    · obtain ⟨ts, hts⟩ := shows_exists one n hn
      exact ⟨ts.map fun t => (t, ⟨0, 0, 0, 0, 0, 0, 0⟩), hb, by simpa [Function.comp_def] using hts, fun h => absurd h hp⟩
  have uniq : ∀ ss, Paints one ss [] → ds = ss := fun ss hss => C73_paints_unique one ds ss (hg.2.2 ⟨ss, hss⟩) hss
  have hshow : ∀ {m : Mesh K} {rows : List (List (Geo K))}, Nice (∃ ss, Paints one ss []) m ([] ++ rows.flatten.flatMap fun s => ds.map (standTextured w.elevation w.center s)) →
      Shows m (rows.flatten.flatMap fun spot => (ds.map Prod.fst).map (stand w.elevation w.center spot)) ∧
      ∀ ss, Paints one ss [] → Paints m (rows.flatten.flatMap fun spot => ss.map (standTextured w.elevation w.center spot)) [] := by
    intro m rows g
    constructor
    · have := g.2.1
      simp only [List.nil_append, List.map_flatMap, List.map_map, Function.comp_def] at this ⊢
      exact this
    · intro ss hss
      rw [← uniq ss hss]
      exact g.2.2 ⟨ss, hss⟩
  cases kind with
  | tree =>
    obtain ⟨m, rows, hr, e, g, v⟩ := rows_good w (Row w .tree (style (.way id tags cs))) (single := one) (ts := ds)
      (fun newMesh p => copyMeshAlong w w.center p.1 p.2 one newMesh (style (.way id tags cs)).step) (parts cs) (by
        intro p hp m td hm
        obtain ⟨count, m', hf, e, g, v⟩ := along_good w w.center p.1 p.2 _ hs (hd p hp).1 (hd p hp).2 hg hm
        exact ⟨m', _, ⟨count, hf, by rw [if_neg (by simp)]⟩, e, g, v⟩) nice_empty
    refine ⟨[⟨"trees:", id, m⟩], ?_, one, m, _, rows, hone, hg.2.1, hr, (hshow g).1, (hshow g).2, g.1, by simp⟩
    simp only [single, treeWay, hone, Outcome.bind, pairsOf_eq cs hne, e]
  | lamp =>
    obtain ⟨m, rows, hr, e, g, v⟩ := rows_good w (Row w .lamp (style (.way id tags cs))) (single := one) (ts := ds)
      (lampPair w (style (.way id tags cs)) one) (parts cs) (by
        intro p hp m td hm
        exact lampPair_good w hq he _ p hs (hd p hp).1 (hd p hp).2 (fun a b => hl rfl a p hp b) hg m td hm) nice_empty
    refine ⟨if m.vertices.isEmpty then [] else [⟨"lamps:", id, m⟩], ?_, one, m, _, rows, hone, hg.2.1, hr, (hshow g).1, (hshow g).2, g.1, ?_⟩
    · simp only [single, lampWay, hone, Outcome.bind, pairsOf_eq cs hne, e]
    · rw [if_neg (by simp)]
      have hv : m.vertices.length = rows.flatten.length * one.vertices.length := by rw [v]; simp
      by_cases hc : rows.flatten = [] ∨ one.vertices = []
      · rw [if_pos hc]
        have : m.vertices = [] := by
          apply List.length_eq_zero_iff.1
          rw [hv]
          rcases hc with hc | hc <;> rw [hc] <;> simp
        simp [this]
      · rw [if_neg hc]
        have : m.vertices ≠ [] := by
          intro hm
          rw [hm] at hv
          simp only [List.length_nil] at hv
          rcases Nat.mul_eq_zero.1 hv.symm with h | h
          · exact hc (.inl (List.length_eq_zero_iff.1 h))
          · exact hc (.inr (List.length_eq_zero_iff.1 h))
        simp [this]

mutual
theorem visit_eq (w : World K) (hq : ∀ x, 0 ≤ x → 0 ≤ w.sqrt x ∧ w.sqrt x * w.sqrt x = x) (he : 0 ≤ w.epsilon) (kind : Kind) (style : Element (Geo K) → PlantStyle K)
    (done : List (Delivered K)) : (e : Element (Geo K)) → (∀ l ∈ leaves e, Plantable w kind style l) →
    ∃ dss, visit w kind style done e = .ok (done ++ dss.flatten) ∧ List.Forall₂ (Delivers w kind style) (leaves e) dss
  | .node id tags c, h => by
    obtain ⟨m, hm⟩ := h (.node id tags c) (by simp [leaves])
    cases kind with
    | tree => exact ⟨[[⟨"tree:", id, m⟩]], by simp [visit, single, plantNode, hm, Outcome.bind], .cons ⟨m, hm, by simp⟩ .nil⟩
    | lamp => exact ⟨[[⟨"lamp:", id, m⟩]], by simp [visit, single, plantNode, hm, Outcome.bind], .cons ⟨m, hm, by simp⟩ .nil⟩
  | .way id tags cs, h => by
    obtain ⟨ds, h1, h2⟩ := way_good w hq he kind style id tags cs (h (.way id tags cs) (by simp [leaves]))
    exact ⟨[ds], by simp [visit, h1, Outcome.bind], .cons h2 .nil⟩
  | .area id tags cs, h => ⟨[], by simp [visit], .nil⟩
  | .relation id tags members, h => by
    obtain ⟨dss, h1, h2⟩ := visitAll_eq w hq he kind style done members (by simpa [leaves] using h)
    exact ⟨dss, by rw [visit, h1], h2⟩

theorem visitAll_eq (w : World K) (hq : ∀ x, 0 ≤ x → 0 ≤ w.sqrt x ∧ w.sqrt x * w.sqrt x = x) (he : 0 ≤ w.epsilon) (kind : Kind) (style : Element (Geo K) → PlantStyle K)
    (done : List (Delivered K)) : (es : List (Element (Geo K))) → (∀ l ∈ leavesIn es, Plantable w kind style l) →
    ∃ dss, visitAll w kind style done es = .ok (done ++ dss.flatten) ∧ List.Forall₂ (Delivers w kind style) (leavesIn es) dss
  | [], _ => ⟨[], by simp [visitAll], .nil⟩
  | e :: es, h => by
    obtain ⟨a, h1, h2⟩ := visit_eq w hq he kind style done e fun l hl => h l (by simp [leavesIn, hl])
    obtain ⟨b, h3, h4⟩ := visitAll_eq w hq he kind style (done ++ a.flatten) es fun l hl => h l (by simp [leavesIn, hl])
    exact ⟨a ++ b, by simp [visitAll, h1, Outcome.bind, h3], List.rel_append h2 h4⟩
end

end AlongProof
open AlongProof

/-- C73: a mesh shows exactly one list of triangles. -/
theorem C73_unique {α : Type} [Add α] [Zero α] (m : Mesh α) (h : Built m) : ∃ ts, Shows m ts ∧ ∀ us, Shows m us → us = ts := by
  obtain ⟨n, hn⟩ := C43_well_formed m h
  obtain ⟨ts, hts⟩ := shows_exists m n hn
  exact ⟨ts, hts, fun us hu => shows_unique hu hts⟩

/-- C73: the copy of a mesh shows its triangles moved, with the same textures, after those which were shown before with theirs. -/
theorem C73_paints_copy {α : Type} [Add α] [Zero α] (source destination : Mesh α) (hs : Built source) (hd : Built destination) (ts td : List (Triangle α × Texture))
    (ps : Paints source ts []) (pd : Paints destination td []) (offset : Vec3 α) :
    ∃ m', copyMesh offset source destination = .ok m' ∧
      Paints m' (td ++ ts.map fun t => ((t.1.1.move offset, t.1.2.1.move offset, t.1.2.2.move offset), t.2)) [] := by
  obtain ⟨k, hk⟩ := C43_well_formed source hs
  obtain ⟨n, hn⟩ := C43_well_formed destination hd
  exact ⟨_, MeshProof.copyMesh_eq offset hk, paints_copy hk hn ps pd offset (MeshProof.copyMesh_eq offset hk)⟩

variable {K : Type} [Field K] [LinearOrder K] [IsStrictOrderedRing K] [FloorRing K]

/-- C80: trees and lamps: for any elements, each node gets its object on the ground at its place, each way one mesh with copies of the object which stand
on the ground along it, with the textures of the object, in the order of the elements. Partial: exact arithmetic; steps have to be positive and ways need a coordinate
(`C80_violated_step`, `C80_violated_empty`). -/
theorem C80_delivered_partial (w : World K) (hq : ∀ x, 0 ≤ x → 0 ≤ w.sqrt x ∧ w.sqrt x * w.sqrt x = x) (he : 0 ≤ w.epsilon) (kind : Kind)
    (style : Element (Geo K) → PlantStyle K) (es : List (Element (Geo K))) (h : ∀ l ∈ leavesIn es, Plantable w kind style l) :
    ∃ dss, visitAll w kind style [] es = .ok dss.flatten ∧ List.Forall₂ (Delivers w kind style) (leavesIn es) dss := by
  obtain ⟨dss, h1, h2⟩ := visitAll_eq w hq he kind style [] es h
  exact ⟨dss, by simpa using h1, h2⟩

/-- C80: the copies along a way begin at its first point, follow each other with equal distances of at least one and less than two steps, and
end one distance before its last point. -/
theorem C80_spacing (p q : Geo K) (step d : K) (hs : 0 < step) (count : Nat) (hc : 0 < count) (h : Fits step d count) :
    step ≤ d / (count : K) ∧ d / (count : K) < 2 * step ∧ (spots p q count).head? = some p ∧
    ∀ (i : Nat) (a : Geo K), (spots p q count)[i]? = some a →
      ⟨a.lat + (q.lat - p.lat) / (count : K), a.lon + (q.lon - p.lon) / (count : K)⟩ = if h : i + 1 < count then (spots p q count)[i + 1]'(by simpa [spots] using h) else q := by
  have hcK : (0 : K) < (count : K) := by exact_mod_cast hc
  have h1K : (1 : K) ≤ (count : K) := by exact_mod_cast hc
  refine ⟨?_, ?_, ?_, ?_⟩
  · rw [le_div_iff₀ hcK, mul_comm]; exact h.1
  · rw [div_lt_iff₀ hcK]; have := h.2; nlinarith
  · cases count with
    | zero => omega
    | succ n => simp [spots, List.range_succ_eq_map, share]
  · intro i a ha
    have hi : i < count := by
      have := (List.getElem?_eq_some_iff.1 ha).1
      simpa [spots] using this
    have ha' : a = share p q ((i : K) / (count : K)) := by
      simp only [spots, List.getElem?_map, List.getElem?_range hi, Option.map_some, Option.some.injEq] at ha
      exact ha.symm
    subst ha'
    split
    · simp only [spots, List.getElem_map, List.getElem_range, share]
      push_cast
      congr 1 <;> (field_simp; ring)
    · rename_i hn
      have : i + 1 = count := by omega
      subst this
      have hne : ((i : K) + 1) ≠ 0 := by push_cast at hcK; exact hcK.ne'
      obtain ⟨qa, qo⟩ := q
      simp only [share]
      push_cast
      congr 1 <;> (field_simp; ring)

/-- C80 is false for a way without coordinates: the number of its parts wraps around, and its first coordinate is read. -/
theorem C80_violated_empty (w : World K) (kind : Kind) (style : Element (Geo K) → PlantStyle K) (id : UInt64) (tags : List Tag) (m : Mesh K)
    (h : (style (.way id tags [])).generate w.center 0 = .ok m) : visit w kind style [] (.way id tags []) = .ub "index out of range" := by
  cases kind <;> simp [visit, single, treeWay, lampWay, h, Outcome.bind, pairsOf]

/-- C80 is false for a step of zero: the number of copies is infinite, its conversion to `int` is undefined. -/
theorem C80_violated_step (w : World K) (kind : Kind) (style : Element (Geo K) → PlantStyle K) (id : UInt64) (tags : List Tag) (p q : Geo K) (m : Mesh K)
    (hs : (style (.way id tags [p, q])).step = 0) (h : (style (.way id tags [p, q])).generate w.center 0 = .ok m) :
    visit w kind style [] (.way id tags [p, q]) = .ub "conversion to int" := by
  cases kind <;> simp [visit, single, treeWay, lampWay, h, Outcome.bind, pairsOf, foldO, copyMeshAlong, lampPair, divInt, hs]

namespace AlongProof

/-- A tree: one triangle. -/
def sapling {α : Type} [Zero α] [One α] : Mesh α := addTriangle {} ⟨0, 0, 0⟩ ⟨0, 1, 0⟩ ⟨1, 0, 0⟩ ⟨0, 0⟩ ⟨0, 0⟩ ⟨0, 0⟩ false 7

/-- A world on a slope. -/
noncomputable def slope : World ℝ := { distance := fun _ _ => 35, elevation := fun c => c.lat, sqrt := Real.sqrt, epsilon := 1 / 2 ^ 52, center := ⟨0, 0⟩ }

/-- The same over the rational numbers, where only roots of squares of small numbers are needed. -/
def ratSlope : World ℚ := { distance := fun _ _ => 35, elevation := fun c => c.lat, sqrt := fun x => if x = 1 then 1 else 4, epsilon := 1 / 2 ^ 52, center := ⟨0, 0⟩ }

end AlongProof

/-- The hypotheses can be met: a node and a way with three coordinates in a relation. -/
example (kind : Kind) : ∃ dss : List (List (Delivered ℝ)), visitAll slope kind (fun _ => ⟨10, 1, fun _ _ => .ok sapling⟩) []
      [.relation 1 [] [.node 2 [] ⟨3, 4⟩, .way 3 [] [⟨0, 0⟩, ⟨0, 4⟩, ⟨1, 4⟩]]] = .ok dss.flatten ∧ dss.length = 2 := by
  obtain ⟨dss, h1, h2⟩ := C80_delivered_partial slope (fun x hx => ⟨Real.sqrt_nonneg x, Real.mul_self_sqrt hx⟩) (by simp [slope]) kind
    (fun _ => ⟨10, 1, fun _ _ => .ok sapling⟩) [.relation 1 [] [.node 2 [] ⟨3, 4⟩, .way 3 [] [⟨0, 0⟩, ⟨0, 4⟩, ⟨1, 4⟩]]] (by
      intro l hl
      simp only [leavesIn, leaves, List.append_nil, List.singleton_append, List.mem_cons, List.not_mem_nil, or_false] at hl
      rcases hl with rfl | rfl
      · exact ⟨sapling, rfl⟩
      · refine ⟨by simp, by norm_num, ⟨sapling, rfl, .triangle _ _ _ _ _ _ _ _ .empty⟩, ?_, ?_⟩
        · intro p _; simp only [slope]; norm_num
        · intro _ _ p hp _
          have hs : ∀ x : ℝ, 1 ≤ x → (1 : ℝ) / 2 ^ 52 < Real.sqrt x := by
            intro x hx
            have : (1 : ℝ) ≤ Real.sqrt x := Real.one_le_sqrt.2 hx
            have : (1 : ℝ) / 2 ^ 52 < 1 := by norm_num
            linarith
          simp only [parts, List.tail_cons, List.zip_cons_cons, List.zip_nil_right, List.mem_cons, List.not_mem_nil, or_false] at hp
          rcases hp with rfl | rfl <;> exact hs _ (by norm_num))
  exact ⟨dss, h1, h2.length_eq.symm⟩

/-- Three trees along a way of 35 metres with step 10, at heights of the ground. -/
example : (match visit ratSlope .tree (fun _ => ⟨10, 0, fun _ _ => .ok sapling⟩) [] (.way 3 [] [⟨0, 0⟩, ⟨3, 6⟩]) with
    | .ok [d] => decide (d.mesh.vertices = [0, 0, 0, 0, 0, 1, 1, 0, 0] ++ [2, 1, 1, 2, 1, 2, 3, 1, 1] ++ [4, 2, 2, 4, 2, 3, 5, 2, 2] ∧ d.name = "trees:")
    | _ => false) = true := by decide +kernel

/-- Lamps beside a way: there are three parts, so that only the second one has a lamp, on the right. -/
example : (match visit ratSlope .lamp (fun _ => ⟨10, 2, fun _ _ => .ok sapling⟩) [] (.way 3 [] [⟨0, 0⟩, ⟨0, 1⟩]) with
    | .ok [d] => decide (d.mesh.vertices.take 3 = [1 / 3, -2, -2] ∧ d.mesh.vertices.length = 9)
    | _ => false) = true := by decide +kernel

end Verif.Props
