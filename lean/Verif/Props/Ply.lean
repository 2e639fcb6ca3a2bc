import Verif.Proof.Ply
import Verif.Props.Clone
/-
C96: the numbers of a PLY file.
-/
namespace TinyMesh
open Sample

section
variable {F : Type} [Scalar F] {m : Mesh F}

/-- C96, as far as it holds: a file with coordinates and indices of four bytes is loaded with the positions and triangles that it holds (including
undefined behaviour for an index that is out of range), if no index is so large that three times the index wraps around. -/
theorem c96_load_partial {vd fd : PlyData} {xs is : List Nat} (hv : vd.Holds xs) (sv : vd.stride = 4) (hf : fd.Holds is) (sf : fd.stride = 4)
    (nw : ∀ i ∈ is, 3 * i + 2 < 2 ^ 32) (dec : BitVec 32 → F) :
    loadPlyData dec (some vd) (some fd) m = loadPLY ⟨pointsOf dec xs, is⟩ m := by
  have := load_eq hv sv hf sf dec (P := pointsOf dec xs) id (fun i hi => plyPos_eq dec xs (nw i hi)) m
  rwa [List.map_id] at this

/-- C96: a file without the element or one of its properties, or with values of fewer than four bytes, is undefined behaviour, whatever the mesh and
the numbers are. -/
theorem c96_types {vd fd : Option PlyData} {xs is : List Nat} (hv : ∀ d ∈ vd, d.Holds xs) (hf : ∀ d ∈ fd, d.Holds is)
    (h : vd = none ∨ fd = none ∨ (∃ d ∈ vd, d.stride < 4 ∧ 0 < d.count) ∨ ∃ d ∈ fd, d.stride < 4 ∧ 0 < d.count) (dec : BitVec 32 → F) :
    loadPlyData dec vd fd m = .err .ub := by
  unfold loadPlyData
  rw [bind_apply]
  simp only [clearArrays]
  cases vd with
  | none => rfl
  | some v =>
    simp only [derefPly, bind_apply, pure_apply]
    by_cases lv : v.bytes.length < 4 * (v.count * 3)
    · simp only [copyWords, if_pos lv, M.fail]
    · simp only [copyWords, if_neg lv, pure_apply]
      cases fd with
      | none => rfl
      | some f =>
        rcases h with h | h | ⟨d, hd, s, c⟩ | ⟨d, hd, s, c⟩
        · cases h
        · cases h
        · cases hd
          have := copyWords_ub (F := F) (hv _ rfl) s c m
          rw [copyWords, if_neg lv] at this
          cases this
        · cases hd
          have := copyWords_ub (F := F) (hf _ rfl) s c
          simp only [derefPly, pure_apply, bind_apply]
          unfold copyWords at this
          rw [this]

/-- C96: of a file with coordinates of eight bytes only the first half of the coordinates is looked at, and it is taken for numbers of four bytes. -/
theorem c96_double {vd vd' : PlyData} {xs xs' : List Nat} (hv : vd.Holds xs) (hv' : vd'.Holds xs') (s : vd.stride = 8) (s' : vd'.stride = 8)
    (n : vd.count = vd'.count) (half : xs.take ((3 * vd.count + 1) / 2) = xs'.take ((3 * vd.count + 1) / 2)) (fd : Option PlyData) (dec : BitVec 32 → F) :
    loadPlyData dec (some vd) fd m = loadPlyData dec (some vd') fd m := by
  have hb := hv.bytes
  have hb' := hv'.bytes
  rw [s] at hb
  rw [s', ← n] at hb'
  have key : vd.bytes.take (4 * (vd.count * 3)) = vd'.bytes.take (4 * (vd.count * 3)) := by
    obtain ⟨e, l, h1, h2, h3⟩ := hv
    obtain ⟨e', l', h1', h2', h3'⟩ := hv'
    rw [s] at h2
    rw [s'] at h2'
    rw [h3, List.length_map] at e
    rw [h3', List.length_map, ← n] at e'
    have k1 : (3 * vd.count + 1) / 2 ≤ l.length := by omega
    have k2 : (3 * vd.count + 1) / 2 ≤ l'.length := by omega
    rw [h1, h1', take_flatten h2 k1 (by omega), take_flatten h2' k2 (by omega)]
    rw [h3, h3', ← List.map_take, ← List.map_take] at half
    rw [values_inj (fun b hb => h2 b (List.mem_of_mem_take hb)) (fun b hb => h2' b (List.mem_of_mem_take hb)) half]
  have : copyWords (F := F) vd = copyWords vd' := by
    unfold copyWords
    rw [← n, if_neg (by omega), if_neg (by omega), key]
  unfold loadPlyData
  rw [bind_apply, bind_apply]
  simp only [clearArrays]
  simp only [derefPly, bind_apply, pure_apply, this]

/-- C96 is false for indices that are out of range: this one, times three, wraps around to two. The load does what it does for a file with one more
vertex, made of the last coordinate of the first and the first two of the second. -/
theorem c96_wrap_counterexample {vd fd : PlyData} {x0 y0 z0 x1 y1 z1 : Nat} {r : List Nat} (hv : vd.Holds (x0 :: y0 :: z0 :: x1 :: y1 :: z1 :: r))
    (sv : vd.stride = 4) (small : vd.count ≤ 1431655765) (hf : fd.Holds [0, 1, 1431655766]) (sf : fd.stride = 4) (dec : BitVec 32 → F) :
    vd.count ≤ 1431655766 ∧ loadPlyData dec (some vd) (some fd) m =
      loadPLY ⟨pointsOf dec (x0 :: y0 :: z0 :: x1 :: y1 :: z1 :: (r ++ [z0, x1, y1])), [0, 1, vd.count]⟩ m := by
  refine ⟨by omega, ?_⟩
  have hl := hv.1
  have two : 2 ≤ vd.count := by simp only [List.length_cons] at hl; omega
  have := load_eq hv sv hf sf dec (P := pointsOf dec (x0 :: y0 :: z0 :: x1 :: y1 :: z1 :: (r ++ [z0, x1, y1]))) (fun i => if i < 2 then i else vd.count) ?_ m
  · simpa using this
  · intro i hi
    simp only [List.mem_cons, List.not_mem_nil, or_false] at hi
    rcases hi with rfl | rfl | rfl
    · rfl
    · rfl
    · rw [if_neg (by norm_num), pointsOf_get]
      have e : ∀ k, ((x0 :: y0 :: z0 :: x1 :: y1 :: z1 :: (r ++ [z0, x1, y1])).map fun x => dec (BitVec.ofNat 32 x))[3 * vd.count + k]? =
          ([z0, x1, y1].map fun x => dec (BitVec.ofNat 32 x))[k]? := by
        intro k
        rw [← hl, show x0 :: y0 :: z0 :: x1 :: y1 :: z1 :: (r ++ [z0, x1, y1]) = (x0 :: y0 :: z0 :: x1 :: y1 :: z1 :: r) ++ [z0, x1, y1] from rfl,
          List.map_append, List.getElem?_append_right (by rw [List.length_map]; omega), List.length_map, Nat.add_sub_cancel_left]
      have e0 := e 0
      rw [Nat.add_zero] at e0
      rw [e0, e 1, e 2]
      rfl

/-- C96: what `savePLY` hands to tinyply is loaded again as the content of the file, with positions rounded to four bytes, if there are not more than
1431655765 vertices. -/
theorem c96_save (g : m.Good) (small : m.vs.length ≤ 1431655765) (enc : F → BitVec 32) (dec : BitVec 32 → F) :
    ∃ vd fd f, savePlyData enc m = .ok (vd, fd) m ∧ savePLY (fun p => ⟨dec (enc p.x), dec (enc p.y), dec (enc p.z)⟩) m = .ok f m ∧
      vd.count = m.vs.length ∧ vd.stride = 4 ∧ fd.stride = 4 ∧ (∃ xs, vd.Holds xs ∧ pointsOf dec xs = f.pos) ∧ fd.Holds f.idx ∧
      ∀ m', loadPlyData dec (some vd) (some fd) m' = loadPLY f m' := by
  have w := g.wf
  have r := report_shown w g
  have hv : PlyData.Holds ⟨(m.vs.map m.vPos).length, 4, ((m.vs.map m.vPos).flatMap fun p => [enc p.x, enc p.y, enc p.z]).flatMap bytesOf⟩
      (((m.vs.map m.vPos).flatMap fun p => [enc p.x, enc p.y, enc p.z]).map BitVec.toNat) := by
    refine ⟨?_, isValues_words _⟩
    rw [List.length_map, length_flatMap_three]
    intro _
    rfl
  have hx : (((m.shown.map (fun t => ((t.c : Int), (t.a : Int), (t.b : Int)))).flatMap fun t => [BitVec.ofInt 32 t.1, BitVec.ofInt 32 t.2.1, BitVec.ofInt 32 t.2.2]).map BitVec.toNat) =
      ofTris (m.shown.map Tri.rot) := by
    have : ∀ t ∈ m.shown, t.a < 2 ^ 32 ∧ t.b < 2 ^ 32 ∧ t.c < 2 ^ 32 := by
      intro t ht
      have := g.range_shown ht
      simp only [Tri.inRange] at this
      omega
    revert this
    generalize m.shown = l
    intro h
    induction l with
    | nil => rfl
    | cons t l ih =>
      obtain ⟨h1, h2, h3⟩ := h t List.mem_cons_self
      simp only [List.map_cons, List.flatMap_cons, List.cons_append, List.nil_append, ofTris, ih fun t ht => h t (List.mem_cons_of_mem _ ht), Tri.rot,
        BitVec.ofInt_natCast, BitVec.toNat_ofNat, Nat.mod_eq_of_lt h1, Nat.mod_eq_of_lt h2, Nat.mod_eq_of_lt h3]
  have hf : PlyData.Holds ⟨(m.shown.map (fun t => ((t.c : Int), (t.a : Int), (t.b : Int)))).length, 4,
      ((m.shown.map (fun t => ((t.c : Int), (t.a : Int), (t.b : Int)))).flatMap fun t => [BitVec.ofInt 32 t.1, BitVec.ofInt 32 t.2.1, BitVec.ofInt 32 t.2.2]).flatMap bytesOf⟩
      (ofTris (m.shown.map Tri.rot)) := by
    rw [← hx]
    refine ⟨?_, isValues_words _⟩
    rw [List.length_map, length_flatMap_three]
    intro _
    rfl
  refine ⟨_, _, ⟨(m.vs.map m.vPos).map fun p => ⟨dec (enc p.x), dec (enc p.y), dec (enc p.z)⟩, ofTris (m.shown.map Tri.rot)⟩, ?_, ?_, ?_, rfl, rfl,
    ⟨_, hv, pointsOf_enc dec enc _⟩, hf, ?_⟩
  · simp only [savePlyData, bind_apply, w.getVertices_ok, r, pure_apply]
  · simp only [savePLY, bind_apply, w.getVertices_ok, r, pure_apply, flatIdx_map]
  · simp
  · intro m'
    rw [c96_load_partial hv rfl hf rfl ?_ dec, pointsOf_enc]
    intro i hi
    obtain ⟨t, ht, h⟩ := (mem_ofTris _).1 hi
    obtain ⟨t', ht', rfl⟩ := List.mem_map.1 ht
    have := g.range_shown ht'
    simp only [Tri.inRange] at this
    simp only [Tri.has, Tri.rot] at h
    omega

/-- C96: together, saving a mesh and loading the numbers into a new object gives the same triangles over the same positions, up to the rounding, if the
rounding keeps the positions apart and no vertex is at two holes. -/
theorem c96_save_load_partial (L : EqLaw F) (g : m.Good) (oh : m.OneHole) (bs : m.BdSym) (small : m.vs.length ≤ 1431655765) (enc : F → BitVec 32)
    (dec : BitVec 32 → F) (D : Distinct ((m.vs.map m.vPos).map fun p => ⟨dec (enc p.x), dec (enc p.y), dec (enc p.z)⟩)) {grow : Nat → Nat}
    (fit : Fits grow 0 m.shown) :
    ∃ vd fd m2 r r2, savePlyData enc m = .ok (vd, fd) m ∧ loadPlyData dec (some vd) (some fd) (Mesh.empty grow) = .ok () m2 ∧ m2.Good ∧
      (m2.vs.map m2.vPos).Perm ((m.vs.map m.vPos).map fun p => ⟨dec (enc p.x), dec (enc p.y), dec (enc p.z)⟩) ∧
      getVertexIndices m = .ok r m ∧ getVertexIndices m2 = .ok r2 m2 ∧
      SameFaces ((m.vs.map m.vPos).map fun p => ⟨dec (enc p.x), dec (enc p.y), dec (enc p.z)⟩) r (m2.vs.map m2.vPos) r2 := by
  obtain ⟨vd, fd, f, e1, e2, -, -, -, -, -, h⟩ := c96_save g small enc dec
  obtain ⟨f', m2, r, r2, e3, -, e4, -, k⟩ := g.save_load_ok L oh bs _ D fit
  rw [e2] at e3
  cases e3
  exact ⟨vd, fd, m2, r, r2, e1, by rw [h, e4], k⟩

end

attribute [local instance] Sample.ratScalar

/-- the strip, with natural numbers as coordinates -/
example : ∃ (m m2 : Mesh Rat) (vd fd : PlyData), construct stripV stripI fresh = .ok () m ∧
    savePlyData (fun x => BitVec.ofInt 32 x.num) m = .ok (vd, fd) m ∧
    loadPlyData (fun w => (w.toNat : Rat)) (some vd) (some fd) (Mesh.empty dbl) = .ok () m2 ∧ m2.Good := by
  obtain ⟨_, m, _, _, h1, _, h3⟩ := thenSt_iff (o := construct stripV stripI fresh) (f := getVertices)
    (p := fun m _ _ => m.noAloneB && distinctB ((m.vs.map m.vPos).map fun p => (⟨((BitVec.ofInt 32 p.x.num).toNat : Nat), ((BitVec.ofInt 32 p.y.num).toNat : Nat), ((BitVec.ofInt 32 p.z.num).toNat : Nat)⟩ : Vec3 Rat)) &&
      decide (m.vs.length ≤ 1431655765) &&
      decide (3 * m.shownB.length + boundaryCount m.shownB ≤ capAfter dbl 0 0 (3 * m.shownB.length))) (by decide +kernel)
  simp only [Bool.and_eq_true, decide_eq_true_eq] at h3
  obtain ⟨⟨⟨n1, d⟩, sm⟩, hf⟩ := h3
  have g := c01_construct_consistent (Owned.empty dbl) h1
  obtain ⟨oh, bsym⟩ := construct_oneHole (Owned.empty dbl) h1 (g.wf.noAlone n1)
  obtain ⟨vd, fd, m2, _, _, e1, e2, G, _⟩ := c96_save_load_partial law g oh bsym sm (fun x => BitVec.ofInt 32 x.num) (fun w => (w.toNat : Rat))
    (distinctB_iff d) (grow := dbl) (by rw [g.wf.shown_eq]; exact hf)
  exact ⟨m, m2, vd, fd, h1, e1, e2, G⟩

/-- values as bytes -/
theorem holds_bytes (n : Nat) (l : List (List Byte)) {c : Nat} (h : ∀ b ∈ l, b.length = n) (hc : l.length = 3 * c) :
    PlyData.Holds ⟨c, n, l.flatten⟩ (l.map leValue) := ⟨by rw [List.length_map]; exact hc, l, rfl, h, rfl⟩

/-- three indices of two bytes are not loaded -/
example (dec : BitVec 32 → Rat) (m : Mesh Rat) {vd : PlyData} {xs : List Nat} (hv : vd.Holds xs) :
    loadPlyData dec (some vd) (some ⟨1, 2, [[0, 0], [1, 0], [2, 0]].flatten⟩) m = .err .ub :=
  c96_types (is := [0, 1, 2]) (by rintro d ⟨⟩; exact hv) (by rintro d ⟨⟩; exact holds_bytes 2 [[0, 0], [1, 0], [2, 0]] (by decide) rfl)
    (Or.inr (Or.inr (Or.inr ⟨_, rfl, by decide, by decide⟩))) dec

/-- two files with one vertex whose last coordinates are different -/
example (dec : BitVec 32 → Rat) (m : Mesh Rat) (fd : Option PlyData) :
    ∃ vd vd' : PlyData, vd.Holds [1, 2, 3] ∧ vd'.Holds [1, 2, 4] ∧ vd.stride = 8 ∧ vd'.stride = 8 ∧
      loadPlyData dec (some vd) fd m = loadPlyData dec (some vd') fd m := by
  have h1 := holds_bytes 8 [[1, 0, 0, 0, 0, 0, 0, 0], [2, 0, 0, 0, 0, 0, 0, 0], [3, 0, 0, 0, 0, 0, 0, 0]] (c := 1) (by decide) rfl
  have h2 := holds_bytes 8 [[1, 0, 0, 0, 0, 0, 0, 0], [2, 0, 0, 0, 0, 0, 0, 0], [4, 0, 0, 0, 0, 0, 0, 0]] (c := 1) (by decide) rfl
  exact ⟨_, _, h1, h2, rfl, rfl, c96_double h1 h2 rfl rfl rfl rfl fd dec⟩

/-- a file with two vertices and an index that wraps around is loaded as a triangle -/
example : ∃ (vd fd : PlyData) (m : Mesh Rat), vd.count = 2 ∧ vd.Holds [1, 2, 3, 4, 5, 6] ∧ fd.Holds [0, 1, 1431655766] ∧
    loadPlyData (fun w => (w.toNat : Rat)) (some vd) (some fd) (Mesh.empty fun n => 2 * n + 8) = .ok () m ∧ (m.vs.map fun v => ((m.vPos v).x, (m.vPos v).y, (m.vPos v).z)) = [(1, 2, 3), (4, 5, 6), (3, 4, 5)] := by
  have h1 := holds_bytes 4 [[1, 0, 0, 0], [2, 0, 0, 0], [3, 0, 0, 0], [4, 0, 0, 0], [5, 0, 0, 0], [6, 0, 0, 0]] (c := 2) (by decide) rfl
  have h2 := holds_bytes 4 [[0, 0, 0, 0], [1, 0, 0, 0], [86, 85, 85, 85]] (c := 1) (by decide) rfl
  have k := (c96_wrap_counterexample (m := Mesh.empty fun n => 2 * n + 8) h1 rfl (by decide) h2 rfl (fun w => (w.toNat : Rat))).2
  obtain ⟨_, m, _, _, h3, _, h4⟩ := thenSt_iff (o := loadPLY ⟨pointsOf (fun w => (w.toNat : Rat)) [1, 2, 3, 4, 5, 6, 3, 4, 5], [0, 1, 2]⟩ (Mesh.empty fun n => 2 * n + 8))
    (f := getVertices) (p := fun m _ _ => decide ((m.vs.map fun v => ((m.vPos v).x, (m.vPos v).y, (m.vPos v).z)) = [(1, 2, 3), (4, 5, 6), (3, 4, 5)])) (by decide +kernel)
  exact ⟨_, _, m, rfl, h1, h2, k.trans h3, of_decide_eq_true h4⟩

end TinyMesh
