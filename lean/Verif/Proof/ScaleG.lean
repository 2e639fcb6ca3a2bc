import Verif.Proof.ScaleC
import Verif.Model.Fill
import Verif.Model.Construct
/-
Construction and the filling of holes in every unit of length.
-/
namespace TinyMesh
namespace Zoom
variable {g : Zoom} {α β γ δ : Type}

/-! ### Hole filling -/

theorem fillArea_pt (a b c : Vec3 ℝ) : fillArea (g.pt a) (g.pt b) (g.pt c) = g.area (fillArea a b c) := by
  simp only [fillArea, pt_sub, cross_pt, length_mag, len_len]
  simp only [area]; ring

theorem fillAngle_pt (a b c d e : Vec3 ℝ) : fillAngle (g.pt a) (g.pt b) (g.pt c) (g.pt d) (g.pt e) = fillAngle a b c d e := by
  simp only [fillAngle, dihedral_pt]

theorem Sim.boundaryAt {bs : List Nat} {i : Nat} : g.Same (TinyMesh.boundaryAt (F := ℝ) bs i) := by
  unfold TinyMesh.boundaryAt
  cases bs[i]? with
  | none => exact Sim.fail
  | some v => exact Sim.pureId

theorem Sim.boundaryPos {bs : List Nat} {i : Nat} : g.Sim g.pt (TinyMesh.boundaryPos bs i) (TinyMesh.boundaryPos bs i) :=
  Sim.bindId Sim.boundaryAt (fun _ => Sim.getPos)

theorem Sim.oppositePos {h : Nat} : g.Sim g.pt (TinyMesh.oppositePos h) (TinyMesh.oppositePos h) :=
  Sim.bindId Sim.getRev (fun _ => Sim.bindId Sim.getNext (fun _ => Sim.bindId Sim.getDst (fun _ => Sim.getPos)))

/-! The tables of areas are filled with 10¹² at first. The angles are too, and no angle is that large, so the first candidate for an
entry is always taken, whatever its area. -/

/-- `y` on the scaled mesh does what `x` does on the mesh, with results in a relation -/
def Rel (g : Zoom) (R : α → β → Prop) (x : M ℝ α) (y : M ℝ β) : Prop := ∀ m, match x m, y (g.mesh m) with
  | .ok a m', .ok b m'' => m'' = g.mesh m' ∧ R a b
  | .err e, .err e' => e' = e
  | _, _ => False

theorem Rel.ret {R : α → β → Prop} {a : α} {b : β} (h : R a b) : g.Rel R (pure a) (pure b) := fun _ => ⟨rfl, h⟩

theorem Rel.mono {R R' : α → β → Prop} {x : M ℝ α} {y : M ℝ β} (h : g.Rel R x y) (w : ∀ a b, R a b → R' a b) : g.Rel R' x y := by
  intro m
  have := h m
  rcases hx : x m with ⟨a, m'⟩ | e <;> rcases hy : y (g.mesh m) with ⟨b, m''⟩ | e' <;> rw [hx, hy] at this
  · exact ⟨this.1, w _ _ this.2⟩
  · exact this
  · exact this
  · exact this

theorem Rel.bind {R : α → β → Prop} {R' : γ → δ → Prop} {x : M ℝ α} {y : M ℝ β} {f : α → M ℝ γ} {f' : β → M ℝ δ} (h : g.Rel R x y)
    (k : ∀ a b, R a b → g.Rel R' (f a) (f' b)) : g.Rel R' (x >>= f) (y >>= f') := by
  intro m
  have := h m
  show match M.bind x f m, M.bind y f' (g.mesh m) with
    | .ok a m', .ok b m'' => m'' = g.mesh m' ∧ R' a b
    | .err e, .err e' => e' = e
    | _, _ => False
  unfold M.bind
  rcases hx : x m with ⟨a, m'⟩ | e <;> rcases hy : y (g.mesh m) with ⟨b, m''⟩ | e' <;> rw [hx, hy] at this
  · obtain ⟨rfl, r⟩ := this
    exact k a b r m'
  · exact this.elim
  · exact this.elim
  · exact this

theorem Rel.of {φ : α → β} {x : M ℝ α} {y : M ℝ β} (h : g.Sim φ x y) : g.Rel (fun a b => b = φ a) x y := by
  intro m
  rw [h m]
  cases x m with
  | ok a m' => exact ⟨rfl, rfl⟩
  | err e => rfl

theorem Rel.sim {R : α → β → Prop} {ψ : γ → δ} {x : M ℝ α} {y : M ℝ β} {f : α → M ℝ γ} {f' : β → M ℝ δ} (h : g.Rel R x y)
    (k : ∀ a b, R a b → g.Sim ψ (f a) (f' b)) : g.Sim ψ (x >>= f) (y >>= f') := by
  intro m
  have := h m
  show M.bind y f' (g.mesh m) = g.out ψ (M.bind x f m)
  unfold M.bind
  rcases hx : x m with ⟨a, m'⟩ | e <;> rcases hy : y (g.mesh m) with ⟨b, m''⟩ | e' <;> rw [hx, hy] at this
  · obtain ⟨rfl, r⟩ := this
    exact k a b r m'
  · exact this.elim
  · exact this.elim
  · have : e' = e := this
    subst this; rfl

theorem Rel.bindPt {R' : γ → δ → Prop} {x y : M ℝ (Vec3 ℝ)} {f : Vec3 ℝ → M ℝ γ} {f' : Vec3 ℝ → M ℝ δ} (h : g.Sim g.pt x y)
    (k : ∀ a, g.Rel R' (f a) (f' (g.pt a))) : g.Rel R' (x >>= f) (y >>= f') :=
  Rel.bind (Rel.of h) (fun a b e => by subst e; exact k a)

theorem Rel.foldAll {body body' : Nat → β → M ℝ β} (R : Nat → β → β → Prop) :
    ∀ (n lo : Nat), (∀ i, lo ≤ i → i < lo + n → ∀ b b', R i b b' → g.Rel (R (i + 1)) (body i b) (body' i b')) →
    ∀ b b', R lo b b' → g.Rel (R (lo + n)) (TinyMesh.foldAll body (List.range' lo n) b) (TinyMesh.foldAll body' (List.range' lo n) b') := by
  intro n
  induction n with
  | zero => intro lo _ b b' r; exact Rel.ret r
  | succ n ih =>
    intro lo h b b' r
    rw [List.range'_succ]
    refine Rel.bind (h lo (le_refl _) (by omega) b b' r) (fun c c' r' => ?_)
    have := ih (lo + 1) (fun i h1 h2 => h i (by omega) (by omega)) c c' r'
    rwa [show lo + 1 + n = lo + (n + 1) by omega] at this

/-- two tables for the same hole in different units; `S` are the entries that have been computed -/
structure TabRel (g : Zoom) (S : Nat → Nat → Prop) (t t' : FillTab ℝ) : Prop where
  angle : t'.angle = t.angle
  o : t'.o = t.o
  area : ∀ i k, S i k → t'.area i k = g.area (t.area i k)
  done : ∀ i k, S i k → t.angle i k < 10 ^ 12
  todo : ∀ i k, ¬ S i k → t.angle i k = 10 ^ 12

theorem TabRel.congr {S S' : Nat → Nat → Prop} {t t' : FillTab ℝ} (h : g.TabRel S t t') (e : ∀ i k, S i k ↔ S' i k) : g.TabRel S' t t' := by
  have : S = S' := funext fun i => funext fun k => propext (e i k)
  rwa [← this]

theorem TabRel.put {S : Nat → Nat → Prop} {t t' : FillTab ℝ} (h : g.TabRel S t t') (i k : Nat) {a w : ℝ} {x : Option Nat} (hw : w < 10 ^ 12) :
    g.TabRel (fun p q => S p q ∨ (p = i ∧ q = k)) { area := put2 t.area i k a, angle := put2 t.angle i k w, o := put2 t.o i k x }
      { area := put2 t'.area i k (g.area a), angle := put2 t'.angle i k w, o := put2 t'.o i k x } where
  angle := by simp only [h.angle]
  o := by simp only [h.o]
  area p q := by
    intro hs
    simp only [put2]
    by_cases e : p = i ∧ q = k
    · simp only [e, and_self, if_true]
    · simp only [e, if_false]
      exact h.area p q (by tauto)
  done p q := by
    intro hs
    simp only [put2]
    by_cases e : p = i ∧ q = k
    · simp only [e, and_self, if_true, hw]
    · simp only [e, if_false]
      exact h.done p q (by tauto)
  todo p q := by
    intro hs
    simp only [put2]
    have e : ¬ (p = i ∧ q = k) := by tauto
    simp only [e, if_false]
    exact h.todo p q (by tauto)

theorem TabRel.keep {S : Nat → Nat → Prop} {t t' : FillTab ℝ} (h : g.TabRel S t t') {i k : Nat} (hs : S i k) :
    g.TabRel (fun p q => S p q ∨ (p = i ∧ q = k)) t t' := by
  refine h.congr (fun p q => ?_)
  constructor
  · exact Or.inl
  · rintro (h | ⟨rfl, rfl⟩)
    · exact h
    · exact hs

theorem dihedral_nonneg (a b c d : Vec3 ℝ) : 0 ≤ Vec3.dihedral a b c d := by
  unfold Vec3.dihedral
  simp only
  split
  · rw [R_lit0]
  · exact Real.arccos_nonneg _

theorem fillAngle_lt (a b c d e : Vec3 ℝ) : fillAngle a b c d e < 10 ^ 12 := by
  have h1 := dihedral_nonneg c a b d
  have h2 := dihedral_nonneg a b c e
  have hp : (Scalar.pi : ℝ) ≤ 4 := Real.pi_le_four
  unfold fillAngle
  rw [R_fmax]
  apply max_lt <;> linarith

theorem fillInit_rel {S : Nat → Nat → Prop} {bs : List Nat} {s : HeMaps} {i : Nat} {t t' : FillTab ℝ} (h : g.TabRel S t t') :
    g.Rel (g.TabRel fun p q => S p q ∨ (p = i ∧ (q = i + 1 ∨ q = i + 2 ∧ i + 2 < bs.length))) (fillInitStep bs s i t) (fillInitStep bs s i t') := by
  have h1 := h.put i (i + 1) (a := Scalar.lit 0 1) (w := Scalar.lit 0 1) (x := none) (by rw [R_lit0]; positivity)
  rw [← zero_area] at h1
  unfold fillInitStep
  simp only
  split
  · rename_i hi
    refine Rel.bindPt Sim.boundaryPos (fun v0 => Rel.bindPt Sim.boundaryPos (fun v1 => Rel.bindPt Sim.boundaryPos (fun v2 => ?_)))
    refine Rel.bindPt Sim.oppositePos (fun a => Rel.bindPt Sim.oppositePos (fun b => ?_))
    rw [fillArea_pt, fillAngle_pt]
    refine Rel.ret ((h1.put i (i + 2) (fillAngle_lt _ _ _ _ _)).congr (fun p q => ?_))
    tauto
  · rename_i hi
    refine Rel.ret (h1.congr (fun p q => ?_))
    tauto

theorem fillOpposite_rel {bs : List Nat} {s : HeMaps} {t t' : FillTab ℝ} {i m : Nat} (h : t'.o = t.o) :
    g.Sim g.pt (TinyMesh.fillOpposite bs s t i m) (TinyMesh.fillOpposite bs s t' i m) := by
  unfold TinyMesh.fillOpposite
  rw [h]
  refine Sim.ite Sim.oppositePos ?_
  cases t.o i m with
  | none => exact Sim.fail
  | some x => exact Sim.boundaryPos

theorem fillStep_rel {S : Nat → Nat → Prop} {bs : List Nat} {s : HeMaps} {bound : ℝ} {i k m : Nat} {t t' : FillTab ℝ} (h : g.TabRel S t t')
    (h1 : S i m) (h2 : S m k) :
    g.Rel (g.TabRel fun p q => S p q ∨ (p = i ∧ q = k)) (fillStep bs s bound i k m t) (fillStep bs s bound i k m t') := by
  unfold fillStep
  refine Rel.bindPt Sim.boundaryPos (fun v0 => Rel.bindPt Sim.boundaryPos (fun v1 => Rel.bindPt Sim.boundaryPos (fun v2 => ?_)))
  refine Rel.bindPt (fillOpposite_rel h.o) (fun a => Rel.bindPt (fillOpposite_rel h.o) (fun b => ?_))
  rw [fillArea_pt, fillAngle_pt, h.area i m h1, h.area m k h2, area_add, area_add, h.angle]
  have hw : fmax (fillAngle v0 v1 v2 a b) (fmax (t.angle i m) (t.angle m k)) < 10 ^ 12 := by
    rw [R_fmax, R_fmax]
    exact max_lt (fillAngle_lt _ _ _ _ _) (max_lt (h.done _ _ h1) (h.done _ _ h2))
  generalize fmax (fillAngle v0 v1 v2 a b) (fmax (t.angle i m) (t.angle m k)) = w at hw
  have put := h.put i k (a := t.area i m + t.area m k + fillArea v0 v1 v2) (x := some m) hw
  rw [h.angle] at put
  dsimp only
  by_cases hs : S i k
  · have e : ∀ x y : ℝ, Scalar.lt (g.area x) (g.area y) = Scalar.lt x y := by
      intro x y
      show decide _ = decide _
      rw [decide_eq_decide, area_lt]
    rw [h.area i k hs, e]
    split
    · exact Rel.ret put
    · exact Rel.ret (h.keep hs)
  · have e : Scalar.lt w (t.angle i k) = true := by
      rw [h.todo i k hs, R_lt]; exact hw
    rw [e]
    simp only [Bool.true_or, if_true]
    exact Rel.ret put

theorem fillSteps_rel {S : Nat → Nat → Prop} {bs : List Nat} {s : HeMaps} {bound : ℝ} {i k : Nat} (ms : List Nat)
    (hm : ∀ m ∈ ms, S i m ∧ S m k) : ∀ t t' : FillTab ℝ, g.TabRel (fun p q => S p q ∨ (p = i ∧ q = k)) t t' →
    g.Rel (g.TabRel fun p q => S p q ∨ (p = i ∧ q = k)) (TinyMesh.foldAll (fillStep bs s bound i k) ms t)
      (TinyMesh.foldAll (fillStep bs s bound i k) ms t') := by
  induction ms with
  | nil => intro t t' h; exact Rel.ret h
  | cons m ms ih =>
    intro t t' h
    have hm1 := hm m (by simp)
    refine Rel.bind (fillStep_rel h (.inl hm1.1) (.inl hm1.2)) (fun u u' r => ?_)
    exact ih (fun m' h' => hm m' (by simp [h'])) u u' (r.congr (fun p q => by tauto))

theorem fillCell_rel {S : Nat → Nat → Prop} {bs : List Nat} {s : HeMaps} {bound : ℝ} {i j : Nat} (hj : 2 ≤ j)
    (hm : ∀ m, i < m → m < i + j → S i m ∧ S m (i + j)) {t t' : FillTab ℝ} (h : g.TabRel S t t') :
    g.Rel (g.TabRel fun p q => S p q ∨ (p = i ∧ q = i + j)) (fillCell bs s bound j i t) (fillCell bs s bound j i t') := by
  unfold fillCell
  obtain ⟨n, rfl⟩ : ∃ n, j = n + 2 := ⟨j - 2, by omega⟩
  rw [show n + 2 - 1 = n + 1 by omega, List.range'_succ]
  have h1 := hm (i + 1) (by omega) (by omega)
  refine Rel.bind (fillStep_rel h h1.1 h1.2) (fun u u' r => fillSteps_rel _ (fun m hmem => ?_) u u' r)
  rw [List.mem_range'_1] at hmem
  exact hm m (by omega) (by omega)

/-- the entries of the table for a hole of `n` corners that are known when row `j` has reached column `i` -/
def Known (n j i a b : Nat) : Prop := a < b ∧ b < n ∧ (b - a < j ∨ (b - a = j ∧ a < i))

theorem fillRow_rel {bs : List Nat} {s : HeMaps} {bound : ℝ} {j : Nat} (hj : 3 ≤ j) {t t' : FillTab ℝ} (h : g.TabRel (Known bs.length j 0) t t') :
    g.Rel (g.TabRel (Known bs.length (j + 1) 0)) (fillRow bs s bound j t) (fillRow bs s bound j t') := by
  unfold fillRow
  rw [List.range_eq_range']
  have := Rel.foldAll (g := g) (body := fillCell bs s bound j) (body' := fillCell bs s bound j) (fun i => g.TabRel (Known bs.length j i))
    (bs.length - j) 0 (fun i _ h2 b b' r => by
      refine (fillCell_rel (by omega) (fun m h3 h4 => ?_) r).mono (fun u u' r' => r'.congr (fun p q => ?_))
      · unfold Known; omega
      · unfold Known; omega) t t' h
  refine this.mono (fun u u' r => r.congr (fun p q => ?_))
  unfold Known; omega

theorem fillTable_rel {bs : List Nat} {s : HeMaps} {bound : ℝ} :
    g.Rel (fun t t' => t'.o = t.o) (fillTable bs s bound) (fillTable (F := ℝ) bs s bound) := by
  unfold fillTable
  rw [List.range_eq_range']
  have h0 : g.TabRel (fun a b => a < 0 ∧ a < b ∧ b < bs.length ∧ b ≤ a + 2) FillTab.init FillTab.init :=
    ⟨rfl, rfl, fun i k h => by omega, fun i k h => by omega, fun i k _ => by show (Scalar.lit (10 ^ 12) 1 : ℝ) = _; rw [R_lit]; norm_num⟩
  have h1 := Rel.foldAll (g := g) (body := fillInitStep bs s) (body' := fillInitStep bs s)
    (fun i => g.TabRel (fun a b => a < i ∧ a < b ∧ b < bs.length ∧ b ≤ a + 2)) (bs.length - 1) 0 (fun i _ h2 b b' r => by
      refine (fillInit_rel r).mono (fun u u' r' => r'.congr (fun p q => ?_))
      omega) _ _ h0
  refine Rel.bind h1 (fun t t' r => ?_)
  have h2 := Rel.foldAll (g := g) (body := fillRow bs s bound) (body' := fillRow bs s bound)
    (fun j => g.TabRel (Known bs.length j 0)) (bs.length - 3) 3 (fun j h3 h4 b b' r => fillRow_rel h3 r) t t'
    (r.congr (fun p q => by unfold Known; omega))
  exact h2.mono (fun u u' r => r.o)

theorem Sim.pairHalfedge {s : HeMaps} {i j : Nat} : g.Same (TinyMesh.pairHalfedge (F := ℝ) s i j) := by
  unfold TinyMesh.pairHalfedge
  cases s.pair2he.lookup (i, j) with
  | some h => exact Sim.pureId
  | none => exact Sim.bindId Sim.newHalfedge (fun _ => Sim.bindId Sim.addHalfedge (fun _ => Sim.pureId))

theorem Sim.addNewTriangle {bs : List Nat} {tri : Nat × Nat × Nat} {s : HeMaps} : g.Same (TinyMesh.addNewTriangle (F := ℝ) bs tri s) := by
  unfold TinyMesh.addNewTriangle
  obtain ⟨i0, i1, i2⟩ := tri
  refine Sim.bindId Sim.pairHalfedge (fun r0 => Sim.bindId Sim.pairHalfedge (fun r1 => Sim.bindId Sim.pairHalfedge (fun r2 => ?_)))
  refine Sim.bindId Sim.boundaryAt (fun v0 => Sim.bindId Sim.setSrc (fun _ => ?_))
  refine Sim.bindId Sim.boundaryAt (fun v1 => Sim.bindId Sim.setSrc (fun _ => ?_))
  refine Sim.bindId Sim.boundaryAt (fun v2 => Sim.bindId Sim.setSrc (fun _ => ?_))
  refine Sim.bindId Sim.setNext (fun _ => Sim.bindId Sim.setNext (fun _ => Sim.bindId Sim.setNext (fun _ => ?_)))
  refine Sim.bindId Sim.setBd (fun _ => Sim.bindId Sim.setBd (fun _ => Sim.bindId Sim.setBd (fun _ => ?_)))
  refine Sim.bindId Sim.newFace (fun f => Sim.bindId Sim.addFace (fun _ => ?_))
  refine Sim.bindId Sim.setFace (fun _ => Sim.bindId Sim.setFace (fun _ => Sim.bindId Sim.setFace (fun _ => ?_)))
  exact Sim.bindId Sim.setFHe (fun _ => Sim.pureId)

theorem Sim.addTriangles {bs : List Nat} (ts : List (Nat × Nat × Nat)) : ∀ fs s, g.Same (TinyMesh.addTriangles (F := ℝ) bs ts fs s) := by
  induction ts with
  | nil => intro fs s; exact Sim.pureId
  | cons t ts ih => intro fs s; exact Sim.bindId Sim.addNewTriangle (fun r => ih _ _)

theorem Sim.fillLinkRev {s : HeMaps} {h : Nat} : g.Same (TinyMesh.fillLinkRev (F := ℝ) s h) := by
  unfold TinyMesh.fillLinkRev
  refine Sim.bindId Sim.getRev (fun r => Sim.ite ?_ Sim.pureId)
  simp only
  cases s.pair2he.lookup _ with
  | none => exact Sim.pureId
  | some r => exact Sim.bindId Sim.setRev (fun _ => Sim.bindId Sim.setRev (fun _ => Sim.bindId Sim.setBd (fun _ => Sim.setBd)))

theorem Sim.linkFaces {s : HeMaps} (fs : List Nat) : g.Same (TinyMesh.linkFaces (F := ℝ) s fs) := by
  induction fs with
  | nil => exact Sim.pureId
  | cons f fs ih =>
    unfold TinyMesh.linkFaces
    refine Sim.bindId Sim.getFHe (fun h => Sim.bindId (Sim.circId (fun _ => Sim.faceStep) (fun x _ => ?_)) (fun _ => ih))
    exact Sim.bindId Sim.fillLinkRev (fun _ => Sim.pureId)

theorem Sim.holeFillMinDihedral {f : Nat} {bound : ℝ} : g.Same (TinyMesh.holeFillMinDihedral f bound) := by
  unfold TinyMesh.holeFillMinDihedral
  refine Sim.bindId Sim.faceVerts (fun bs => Sim.bindId Sim.faceList (fun hs => Rel.sim fillTable_rel (fun t t' e => ?_)))
  rw [e]
  cases fillTris t.o (bs.length + 1) [(0, bs.length - 1)] [] with
  | error e => exact Sim.fail
  | ok tris => exact Sim.bindId (Sim.addTriangles _ _ _) (fun r => Sim.bindId (Sim.linkFaces _) (fun _ => Sim.removeFace))

theorem Sim.triangulate {f : Nat} : g.Same (TinyMesh.triangulate (F := ℝ) f) := Sim.holeFillMinDihedral

theorem Sim.holePositions (l : List Nat) : ∀ acc, g.Same (TinyMesh.holePositions (F := ℝ) l acc) := by
  induction l with
  | nil => intro acc; exact Sim.pureId
  | cons i l ih => intro acc; exact Sim.bindId Sim.faceAt (fun f => Sim.bindId Sim.fIsHole (fun b => ih _))

theorem Sim.fillAt (l : List Nat) : g.Same (TinyMesh.fillAt (F := ℝ) l) := by
  induction l with
  | nil => exact Sim.pureId
  | cons i l ih => exact Sim.bindId Sim.faceAt (fun f => Sim.bindId Sim.triangulate (fun _ => ih))

theorem Sim.fillHoles : g.Same (TinyMesh.fillHoles (F := ℝ)) :=
  Sim.bindId (Sim.read fun _ => rfl) (fun _ => Sim.bindId (Sim.holePositions _ _) (fun _ => Sim.fillAt _))

/-! ### Construction -/

/-- a moved table of positions -/
def tbl (g : Zoom) (t : List (Vec3 ℝ × Nat)) : List (Vec3 ℝ × Nat) := t.map fun e => (g.pt e.1, e.2)

theorem lookupPos_pt (t : List (Vec3 ℝ × Nat)) (p : Vec3 ℝ) : lookupPos (g.tbl t) (g.pt p) = lookupPos t p := by
  induction t with
  | nil => rfl
  | cons e t ih =>
    obtain ⟨q, i⟩ := e
    show (if (g.pt q).eq (g.pt p) then some i else lookupPos (g.tbl t) (g.pt p)) = if q.eq p then some i else lookupPos t p
    rw [pt_eq, ih]

theorem Sim.clearArrays : g.Same (TinyMesh.clearArrays (F := ℝ)) := fun _ => rfl
theorem Sim.pushVertex {v : Nat} : g.Same (TinyMesh.pushVertex (F := ℝ) v) := fun _ => rfl
theorem Sim.pushIndex {v : Nat} : g.Same (TinyMesh.pushIndex (F := ℝ) v) := fun _ => rfl
theorem Sim.setIndices {ts : List Tri} : g.Same (TinyMesh.setIndices (F := ℝ) ts) := fun _ => rfl

theorem Sim.dedupLoop {V : List (Vec3 ℝ)} (I : List Nat) : ∀ t : List (Vec3 ℝ × Nat),
    g.Sim id (TinyMesh.dedupLoop V I t) (TinyMesh.dedupLoop (V.map g.pt) I (g.tbl t)) := by
  induction I with
  | nil => intro t; exact Sim.pureId
  | cons i I ih =>
    intro t
    unfold TinyMesh.dedupLoop
    rw [List.getElem?_map]
    cases V[i]? with
    | none => exact Sim.fail
    | some p =>
      simp only [Option.map_some, lookupPos_pt]
      refine Sim.bindId (Sim.read fun _ => rfl) (fun n => ?_)
      have e0 : g.tbl (t ++ [(p, n)]) = g.tbl t ++ [(g.pt p, n)] := by simp [tbl]
      have step : ∀ (t1 : List (Vec3 ℝ × Nat)), g.Sim id
          (do TinyMesh.pushIndex (match lookupPos t1 p with | some k => k | none => 0)
              TinyMesh.dedupLoop V I (match lookupPos t1 p with | some _ => t1 | none => t1 ++ [(p, 0)]))
          (do TinyMesh.pushIndex (match lookupPos t1 p with | some k => k | none => 0)
              TinyMesh.dedupLoop (V.map g.pt) I (match lookupPos t1 p with | some _ => g.tbl t1 | none => g.tbl t1 ++ [(g.pt p, 0)])) := by
        intro t1
        refine Sim.bindId Sim.pushIndex (fun _ => ?_)
        cases lookupPos t1 p with
        | some k => exact ih t1
        | none =>
          have := ih (t1 ++ [(p, 0)])
          rwa [show g.tbl (t1 ++ [(p, 0)]) = g.tbl t1 ++ [(g.pt p, 0)] by simp [tbl]] at this
      cases h : lookupPos t p with
      | some k =>
        simp only [Option.isNone_some, Bool.false_eq_true, if_false, lookupPos_pt]
        have := step t
        simp only [h] at this ⊢
        exact this
      | none =>
        simp only [Option.isNone_none, if_true]
        rw [← e0]
        simp only [lookupPos_pt]
        refine Sim.bindId Sim.newVertex (fun v => Sim.bindId Sim.pushVertex (fun _ => ?_))
        exact step (t ++ [(p, n)])

theorem Sim.setVertexIndices (vs : List Nat) : ∀ i, g.Same (TinyMesh.setVertexIndices (F := ℝ) i vs) := by
  induction vs with
  | nil => intro i; exact Sim.pureId
  | cons v vs ih => intro i; exact Sim.bindId Sim.setVIdx (fun _ => ih _)

theorem Sim.vsAt {a : Nat} : g.Same (TinyMesh.vsAt (F := ℝ) a) := by
  intro m
  show (match m.vs[a]? with | none => _ | some v => _) = _
  unfold TinyMesh.vsAt
  cases m.vs[a]? <;> rfl

theorem Sim.addCorner {f a b : Nat} {pd : PD} : g.Same (TinyMesh.addCorner (F := ℝ) f a b pd) := by
  unfold TinyMesh.addCorner
  refine Sim.ite Sim.fail (Sim.bindId Sim.newHalfedge (fun he => Sim.bindId Sim.addHalfedge (fun _ => Sim.bindId Sim.vsAt (fun va => ?_))))
  refine Sim.bindId Sim.setVHe (fun _ => Sim.bindId Sim.setSrc (fun _ => Sim.bindId Sim.setFace (fun _ => Sim.bindId Sim.setFHe (fun _ => ?_))))
  exact Sim.ite (Sim.bindId Sim.setRev (fun _ => Sim.bindId Sim.setRev (fun _ => Sim.pureId))) (Sim.bindId Sim.setRev (fun _ => Sim.pureId))

theorem Sim.addTri {t : Tri} {pd : PD} : g.Same (TinyMesh.addTri (F := ℝ) t pd) := by
  unfold TinyMesh.addTri
  refine Sim.ite Sim.pureId (Sim.bindId Sim.newFace (fun f => ?_))
  refine Sim.bindId Sim.addCorner (fun r => Sim.bindId Sim.addCorner (fun r => Sim.bindId Sim.addCorner (fun r => ?_)))
  exact Sim.bindId Sim.addFace (fun _ => Sim.bindId Sim.setNext (fun _ => Sim.bindId Sim.setNext (fun _ => Sim.bindId Sim.setNext (fun _ => Sim.pureId))))

theorem Sim.addTris (ts : List Tri) : ∀ pd, g.Same (TinyMesh.addTris (F := ℝ) ts pd) := by
  induction ts with
  | nil => intro pd; exact Sim.pureId
  | cons t ts ih => intro pd; exact Sim.bindId Sim.addTri (fun _ => ih _)

theorem Sim.advanceLoop {v : Nat} (fuel : Nat) : ∀ he, g.Same (TinyMesh.advanceLoop (F := ℝ) v fuel he) := by
  induction fuel with
  | zero => intro he; exact Sim.fail
  | succ n ih =>
    intro he
    exact Sim.bindId Sim.getRev (fun r => Sim.ite Sim.setVHe (Sim.bindId Sim.getNext (fun n => Sim.bindId Sim.getVHe (fun s => Sim.ite Sim.pureId (ih _)))))

theorem Sim.advanceVs (vs : List Nat) : g.Same (TinyMesh.advanceVs (F := ℝ) vs) := by
  induction vs with
  | nil => exact Sim.pureId
  | cons v vs ih =>
    exact Sim.bindId Sim.getVHe (fun he => Sim.bindId (Sim.read fun _ => rfl) (fun fuel => Sim.bindId (Sim.advanceLoop _ _) (fun _ => ih)))

theorem Sim.checkRef {e : Nat} : g.Same (TinyMesh.checkRef (F := ℝ) e) := by
  intro m
  unfold TinyMesh.checkRef
  rw [out_ite]
  rfl

theorem Sim.turnLoop {e he : Nat} (fuel : Nat) : ∀ it, g.Same (TinyMesh.turnLoop (F := ℝ) e he fuel it) := by
  induction fuel with
  | zero => intro it; exact Sim.fail
  | succ n ih =>
    intro it
    exact Sim.bindId Sim.checkRef (fun _ => Sim.ite Sim.pureId (Sim.bindId Sim.getRev (fun r => Sim.ite Sim.pureId (Sim.bindId Sim.getNext (fun n => ih _)))))

theorem Sim.holeLoop {e he face : Nat} (fuel : Nat) : ∀ it acc, g.Same (TinyMesh.holeLoop (F := ℝ) e he face fuel it acc) := by
  induction fuel with
  | zero => intro it acc; exact Sim.fail
  | succ n ih =>
    intro it acc
    unfold TinyMesh.holeLoop
    refine Sim.bindId Sim.newHalfedge (fun rev => Sim.bindId Sim.addHalfedge (fun _ => Sim.bindId Sim.setRev (fun _ => Sim.bindId Sim.setRev (fun _ => ?_))))
    refine Sim.bindId Sim.setFace (fun _ => Sim.bindId Sim.getNext (fun n => Sim.bindId Sim.getSrc (fun s => Sim.bindId Sim.setSrc (fun _ => ?_))))
    refine Sim.bindId Sim.setBd (fun _ => Sim.bindId Sim.setBd (fun _ => Sim.bindId (Sim.read fun _ => rfl) (fun tf => Sim.bindId (Sim.turnLoop _ _) (fun it' => ?_))))
    exact Sim.bindId Sim.checkRef (fun _ => Sim.ite Sim.pureId (ih _ _))

theorem Sim.linkHole (l : List Nat) : ∀ p, g.Same (TinyMesh.linkHole (F := ℝ) p l) := by
  induction l with
  | nil => intro p; exact Sim.pureId
  | cons h l ih => intro p; exact Sim.bindId Sim.setNext (fun _ => ih _)

theorem Sim.closeOne {he : Nat} : g.Same (TinyMesh.closeOne (F := ℝ) he) := by
  unfold TinyMesh.closeOne
  refine Sim.bindId Sim.assert (fun _ => Sim.bindId (Sim.read fun _ => rfl) (fun e => Sim.bindId Sim.getRev (fun r => Sim.ite ?_ Sim.pureId)))
  refine Sim.bindId Sim.newFace (fun f => Sim.bindId Sim.addFace (fun _ => Sim.bindId (Sim.read fun _ => rfl) (fun fuel => ?_)))
  exact Sim.bindId (Sim.holeLoop _ _ _) (fun bs => Sim.bindId Sim.setFHe (fun _ => Sim.linkHole _ _))

theorem Sim.closeAll (l : List Nat) : g.Same (TinyMesh.closeAll (F := ℝ) l) := by
  induction l with
  | nil => exact Sim.pureId
  | cons h l ih => exact Sim.bindId Sim.closeOne (fun _ => ih)

theorem Sim.stepBack (l : List Nat) : g.Same (TinyMesh.stepBack (F := ℝ) l) := by
  induction l with
  | nil => exact Sim.pureId
  | cons h l ih =>
    exact Sim.bindId Sim.getVHe (fun _ => Sim.bindId Sim.getRev (fun _ => Sim.bindId Sim.getNext (fun _ => Sim.bindId Sim.setVHe (fun _ => ih))))

theorem Sim.degreeDoLoop {start : Nat} (fuel : Nat) : ∀ he c, g.Same (TinyMesh.checkManifold.loop (F := ℝ) start fuel he c) := by
  induction fuel with
  | zero => intro he c; exact Sim.fail
  | succ n ih =>
    intro he c
    exact Sim.bindId Sim.getRev (fun _ => Sim.bindId Sim.getNext (fun _ => Sim.ite Sim.pureId (ih _ _)))

theorem Sim.degreeDo {v : Nat} : g.Same (TinyMesh.checkManifold.degreeDo (F := ℝ) v) :=
  Sim.bindId Sim.getVHe (fun _ => Sim.bindId (Sim.read fun _ => rfl) (fun _ => Sim.degreeDoLoop _ _ _))

theorem Sim.checkManifold {deg : Nat → Nat} (l : List Nat) : g.Same (TinyMesh.checkManifold (F := ℝ) deg l) := by
  induction l with
  | nil => exact Sim.pureId
  | cons v l ih =>
    refine Sim.bindId Sim.getVHe (fun h => Sim.bindId Sim.assert (fun _ => Sim.bindId Sim.vIsBoundary (fun b => Sim.bindId Sim.degreeDo (fun n => ?_))))
    exact Sim.bindId Sim.getVIdx (fun i => Sim.bindId Sim.assert (fun _ => ih))

theorem Sim.construct0 : g.Same (TinyMesh.construct0 (F := ℝ)) := by
  unfold TinyMesh.construct0
  refine Sim.bindId (Sim.read fun _ => rfl) (fun idx => ?_)
  cases toTris idx with
  | none => exact Sim.fail
  | some ts =>
    refine Sim.bindId Sim.setIndices (fun _ => Sim.bindId (Sim.read fun _ => rfl) (fun vs => Sim.bindId (Sim.setVertexIndices _ _) (fun _ => ?_)))
    refine Sim.bindId Sim.assert (fun _ => Sim.bindId (Sim.addTris _ _) (fun pd => Sim.bindId (Sim.advanceVs _) (fun _ => ?_)))
    exact Sim.bindId (Sim.read fun _ => rfl) (fun hs => Sim.bindId (Sim.closeAll _) (fun _ => Sim.bindId (Sim.stepBack _) (fun _ => Sim.checkManifold _)))

theorem Sim.construct {V : List (Vec3 ℝ)} {I : List Nat} : g.Sim id (TinyMesh.construct V I) (TinyMesh.construct (V.map g.pt) I) :=
  Sim.bindId Sim.clearArrays (fun _ => Sim.bindId (Sim.dedupLoop I []) (fun _ => Sim.construct0))

end Zoom
end TinyMesh
