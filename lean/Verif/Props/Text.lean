import Verif.Proof.Text
import Verif.Props.Clone
import Verif.Proof.RemA
import Mathlib.Data.Set.Finite.List
/-
C94: the text of an OBJ file.
-/
namespace TinyMesh
open Sample

section
variable {F : Type} [Scalar F] {m : Mesh F}

/-- what is read for a position that has been written -/
def viaText (fmt : F → List Char) (rd : List Char → F) (p : Vec3 F) : Vec3 F := ⟨rd (fmt p.x), rd (fmt p.y), rd (fmt p.z)⟩

/-- C94: what `saveOBJ` writes is a text in the OBJ format: every line is a statement, all corners of triangles are numbers of vertices, and the
content is that of `saveOBJ` in Model/IO, where the positions are rounded by writing and reading each number. -/
theorem c94_text (g : m.Good) {fmt : F → List Char} (hf : PlainWords fmt) (rd : List Char → F) :
    ∃ s f, saveText fmt true m = .ok s m ∧ saveOBJ (viaText fmt rd) m = .ok f m ∧ IsObj rd s f ∧
      f.pos = (m.vs.map m.vPos).map (viaText fmt rd) ∧ f.idx = ofTris (m.shown.map Tri.rot) := by
  have w := g.wf
  have r := report_shown w g
  have pos : ∀ x ∈ m.shown.map (fun t => ((t.c : Int), (t.a : Int), (t.b : Int))), 0 ≤ x.1 ∧ 0 ≤ x.2.1 ∧ 0 ≤ x.2.2 := by
    intro x hx
    obtain ⟨t, -, rfl⟩ := List.mem_map.1 hx
    exact ⟨by simp, by simp, by simp⟩
  have inf : ∀ x ∈ m.shown.map (fun t => ((t.c : Int), (t.a : Int), (t.b : Int))), inFile m.vs.length x = true := by
    intro x hx
    obtain ⟨t, ht, rfl⟩ := List.mem_map.1 hx
    have := g.range_shown ht
    simp only [Tri.inRange] at this
    simp [inFile, this]
  have fil := List.filter_eq_self.2 inf
  refine ⟨((m.vs.map m.vPos).map (vertexLine fmt)).flatten ++ ((m.shown.map (fun t => ((t.c : Int), (t.a : Int), (t.b : Int)))).map faceLine).flatten,
    ⟨(m.vs.map m.vPos).map (viaText fmt rd), ofTris (m.shown.map Tri.rot)⟩, ?_, ?_, ?_, rfl, rfl⟩
  · simp only [saveText, if_true, bind_apply, w.getVertices_ok, M.read, r, fil, pure_apply]
  · simp only [saveOBJ, bind_apply, w.getVertices_ok, M.read, r, fil, pure_apply, flatIdx_map]
  · refine ⟨_, readLines_text hf _ pos, objValid_of _ pos (by rw [List.length_map]; exact inf), ?_, ?_⟩
    · rw [objVerts_of]; rfl
    · rw [objFaces_of, flatIdx_map]

/-- C94: a text has at most one content. -/
theorem c94_unique {rd : List Char → F} {s : List Char} {f f' : MeshFile F} (h : IsObj rd s f) (h' : IsObj rd s f') : f = f' := by
  obtain ⟨ls, e, -, e1, e2⟩ := h
  obtain ⟨ls', e', -, e1', e2'⟩ := h'
  rw [e] at e'
  cases e'
  cases f; cases f'
  simp only at e1 e2 e1' e2'
  rw [e1, e2, e1', e2']

/-- C94, as far as it holds: writing a mesh and reading the text into a new object gives the same triangles over the same positions, up to the
rounding of the numbers, if the rounding keeps the positions apart and no vertex is at two holes. -/
theorem c94_load_partial (L : EqLaw F) (g : m.Good) (oh : m.OneHole) (bs : m.BdSym) {fmt : F → List Char} (hf : PlainWords fmt)
    (rd : List Char → F) (D : Distinct ((m.vs.map m.vPos).map (viaText fmt rd))) {grow : Nat → Nat} (fit : Fits grow 0 m.shown) :
    ∃ s f m2 r r2, saveText fmt true m = .ok s m ∧ IsObj rd s f ∧ loadOBJ f (Mesh.empty grow) = .ok () m2 ∧ m2.Good ∧
      (m2.vs.map m2.vPos).Perm ((m.vs.map m.vPos).map (viaText fmt rd)) ∧ getVertexIndices m = .ok r m ∧ getVertexIndices m2 = .ok r2 m2 ∧
      SameFaces ((m.vs.map m.vPos).map (viaText fmt rd)) r (m2.vs.map m2.vPos) r2 := by
  obtain ⟨s, f, e1, e2, ho, -⟩ := c94_text g hf rd
  obtain ⟨f', m2, r, r2, -, e2', -, e3, G, hp, hr, hr2, hs⟩ := g.save_load_ok L oh bs (viaText fmt rd) D fit
  rw [e2] at e2'
  cases e2'
  exact ⟨s, f, m2, r, r2, e1, ho, e3, G, hp, hr, hr2, hs⟩

end

attribute [local instance] Sample.ratScalar

/-- the strip, whose coordinates are natural numbers, written in decimal notation -/
example : ∃ (m : Mesh Rat) (s : List Char) (m2 : Mesh Rat) (f : MeshFile Rat), construct stripV stripI fresh = .ok () m ∧
    saveText (fun x => natText x.num.toNat) true m = .ok s m ∧ IsObj (fun w => ((readNat w).getD 0 : Rat)) s f ∧
    loadOBJ f (Mesh.empty dbl) = .ok () m2 ∧ m2.Good := by
  obtain ⟨_, m, _, _, h1, _, h3⟩ := thenSt_iff (o := construct stripV stripI fresh) (f := getVertices)
    (p := fun m _ _ => m.noAloneB && distinctB ((m.vs.map m.vPos).map fun p => (⟨(p.x.num.toNat : Nat), (p.y.num.toNat : Nat), (p.z.num.toNat : Nat)⟩ : Vec3 Rat)) &&
      decide (3 * m.shownB.length + boundaryCount m.shownB ≤ capAfter dbl 0 0 (3 * m.shownB.length))) (by decide +kernel)
  simp only [Bool.and_eq_true, decide_eq_true_eq] at h3
  obtain ⟨⟨n1, d⟩, hf⟩ := h3
  have g := c01_construct_consistent (Owned.empty dbl) h1
  obtain ⟨oh, bsym⟩ := construct_oneHole (Owned.empty dbl) h1 (g.wf.noAlone n1)
  obtain ⟨s, f, m2, _, _, e1, e2, e3, G, _⟩ := c94_load_partial law g oh bsym (fmt := fun x => natText x.num.toNat)
    (fun x => ⟨(natText_plain _).1, (natText_plain _).2.1, (natText_plain _).2.2.1⟩) (fun w => ((readNat w).getD 0 : Rat))
    (by
      have e : viaText (fun x : Rat => natText x.num.toNat) (fun w => ((readNat w).getD 0 : Rat)) =
          fun p => ⟨(p.x.num.toNat : Nat), (p.y.num.toNat : Nat), (p.z.num.toNat : Nat)⟩ := by
        funext p
        simp only [viaText, readNat_natText', Option.getD_some]
      rw [e]
      exact distinctB_iff d) (grow := dbl) (by rw [g.wf.shown_eq]; exact hf)
  exact ⟨m, s, m2, f, h1, e1, e2, e3, G⟩

/-- C94 is false in general: if two numbers are written alike, every mesh with two vertices can be given positions that are all different, such
that the file has the same position for these two vertices. (`std::ostream` writes six digits by default and the code does not ask for more.) -/
theorem c94_counterexample {m : Mesh Rat} (g : m.Good) {u v : Nat} (au : m.vAlive u = true) (av : m.vAlive v = true) (ne : u ≠ v)
    {fmt : Rat → List Char} (hf : PlainWords fmt) {x y : Rat} (xy : x ≠ y) (e : fmt x = fmt y) (rd : List Char → Rat) :
    ∃ (q : Nat → Vec3 Rat) (s : List Char) (f : MeshFile Rat), (∀ a b, q a = q b → a = b) ∧
      saveText fmt true { m with vPos := q } = .ok s { m with vPos := q } ∧ IsObj rd s f ∧
      ∃ p, f.pos[(m.vIdx u).toNat]? = some p ∧ f.pos[(m.vIdx v).toNat]? = some p := by
  let q : Nat → Vec3 Rat := fun a => if a = u then ⟨x, 0, 0⟩ else if a = v then ⟨y, 0, 0⟩ else ⟨0, a, 1⟩
  have G : ({ m with vPos := q } : Mesh Rat).Good := Mesh.SameButPos.good (m := m) rfl g
  obtain ⟨s, f, e1, -, ho, hp, -⟩ := c94_text G hf rd
  have w := g.wf
  have at' : ∀ a, m.vAlive a = true → f.pos[(m.vIdx a).toNat]? = some (viaText fmt rd (q a)) := by
    intro a aa
    obtain ⟨i, hi, rfl⟩ := List.getElem_of_mem ((w.vDense.mem a).2 aa)
    rw [w.vDense.idx i hi, hp, List.map_map, List.getElem?_map, Int.toNat_natCast, List.getElem?_eq_getElem hi]
    rfl
  refine ⟨q, s, f, fun a b hab => ?_, e1, ho, viaText fmt rd (q u), at' u au, ?_⟩
  · simp only [q] at hab
    split_ifs at hab <;> simp_all
  · rw [at' v av]
    simp only [q, if_true, if_neg ne.symm, viaText, e]

/-- two vertices of the tetrahedron, and numbers written without their fraction -/
example : ∃ (m : Mesh Rat) (q : Nat → Vec3 Rat) (s : List Char) (f : MeshFile Rat), construct tetV tetI fresh = .ok () m ∧ (∀ a b, q a = q b → a = b) ∧
    saveText (fun x => natText (x.num.natAbs / x.den)) true { m with vPos := q } = .ok s { m with vPos := q } ∧
    IsObj (fun w => ((readNat w).getD 0 : Rat)) s f ∧ ∃ p, f.pos[0]? = some p ∧ f.pos[1]? = some p := by
  obtain ⟨_, m, _, _, h1, _, h3⟩ := thenSt_iff (o := construct tetV tetI fresh) (f := getVertices)
    (p := fun m _ _ => m.vAlive 1 && m.vAlive 2 && decide (m.vIdx 1 = 0) && decide (m.vIdx 2 = 1)) (by decide +kernel)
  simp only [Bool.and_eq_true, decide_eq_true_eq] at h3
  obtain ⟨⟨⟨a1, a2⟩, i1⟩, i2⟩ := h3
  have k := c94_counterexample (c01_construct_consistent (Owned.empty dbl) h1) a1 a2 (by decide)
    (fmt := fun x : Rat => natText (x.num.natAbs / x.den)) (x := 0) (y := 1 / 2)
    (fun x => ⟨(natText_plain _).1, (natText_plain _).2.1, (natText_plain _).2.2.1⟩) (by norm_num)
    (congrArg natText (by norm_num : (0 : Rat).num.natAbs / (0 : Rat).den = (1 / 2 : Rat).num.natAbs / (1 / 2 : Rat).den)) (fun w => ((readNat w).getD 0 : Rat))
  rw [i1, i2] at k
  obtain ⟨q, s, f, h⟩ := k
  exact ⟨m, q, s, f, h1, h⟩

/-- such numbers exist: there are only finitely many words of at most 13 characters, which is what `%g` needs at most -/
example (fmt : Rat → List Char) (h : ∀ x, (fmt x).length ≤ 13) : ∃ x y, x ≠ y ∧ fmt x = fmt y := by
  have : Finite Char := Finite.of_injective (fun c : Char => c.val.toFin) fun a b e => Char.ext (UInt32.toFin_inj.1 e)
  by_contra c
  have inj : Function.Injective fmt := fun x y e => by
    by_contra n
    exact c ⟨x, y, n, e⟩
  have fin := (List.finite_length_le Char 13)
  have := fin.subset (t := Set.range fmt) (by rintro _ ⟨x, rfl⟩; exact h x)
  exact Set.infinite_range_of_injective inj this

end TinyMesh
