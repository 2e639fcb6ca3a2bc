import Verif.Props.Whole
/-
C118: the hypotheses can be met. The arithmetic is one with eight binary digits after the point.
-/
set_option maxRecDepth 100000
namespace TinyMesh
namespace Fixed
open Sample

/-- `val / 256` -/
structure Fix where
  val : Int
deriving DecidableEq

def one : Int := 256
def rootLoop (n : Nat) : Nat → Nat → Nat
  | 0, x => x
  | k + 1, x => rootLoop n k ((x + n / (x + 1)) / 2)
def root (n : Nat) : Nat := rootLoop n 8 256
def fmul (a b : Int) : Int := (a * b) / one
def fdiv (a b : Int) : Int := if b = 0 then 1000 * one else (a * one) / b
def fsqrt (a : Int) : Int := root (a.toNat * 256)
def fatan (y x : Int) : Int :=
  let a : Int := y.natAbs
  let q : Int := 201
  let t : Int := if 0 ≤ x then q - fmul q (fdiv (x - a) (x + a + 1)) else 3 * q - fmul q (fdiv (x + a) (a - x + 1))
  if 0 ≤ y then t else -t
instance : ScalarX Fix where
  add a b := ⟨a.val + b.val⟩
  sub a b := ⟨a.val - b.val⟩
  mul a b := ⟨fmul a.val b.val⟩
  div a b := ⟨fdiv a.val b.val⟩
  neg a := ⟨-a.val⟩
  lit n d := ⟨n * one / d⟩
  sqrt a := ⟨fsqrt a.val⟩
  acos a := ⟨fatan (fsqrt (one - fmul a.val a.val)) a.val⟩
  atan2 y x := ⟨fatan y.val x.val⟩
  exp a := ⟨fdiv one (one - a.val)⟩
  pi := ⟨804⟩
  lt a b := decide (a.val < b.val)
  le a b := decide (a.val ≤ b.val)
  eq a b := decide (a.val = b.val)
  notFinite _ := false
  abs a := ⟨a.val.natAbs⟩
  sin a := a
  cos a := ⟨one - fmul a.val a.val / 2⟩
  log a := a
  toInt _ := some 1


def pt (x y z : Int) : Vec3 Fix := ⟨⟨x * one⟩, ⟨y * one⟩, ⟨z * one⟩⟩
def blank : Mesh Fix := Mesh.empty fun n => 2 * n

def sv : LinSolve Fix := fun _ A b i => Scalar.lit 1 1 + b i / A i i
def lib : CohLib Fix where
  ordF := id
  ordV := id
  sort := id
  svd := fun _ => (fun i j => if i = j then Scalar.lit 1 1 else Scalar.lit 0 1, fun _ => Scalar.lit 1 1, fun i j => if i = j then Scalar.lit 1 1 else Scalar.lit 0 1)
  solve := sv
  bvh := ⟨fun _ _ l => l, fun p l => l.filter p ++ l.filter fun x => !p x⟩
  heat := do
    let n ← M.read (fun m => m.vs.length)
    pure ((List.range n).map fun i => [Scalar.lit (i + 1) 1, Scalar.lit 1 1])

theorem heat_reads : OnlyReads lib.heat := by
  intro m a m' e
  cases e
  rfl

def sigs : Nat → Option (List Fix) := fun v => if v ≤ 12 then some [Scalar.lit v 1, Scalar.lit 1 1] else none

/-- three tetrahedra -/
def threeV : List (Vec3 Fix) := [pt 0 0 0, pt 1 0 0, pt 0 1 0, pt 0 0 1, pt 5 0 0, pt 6 0 0, pt 5 1 0, pt 5 0 1, pt 0 5 0, pt 1 5 0, pt 0 6 0, pt 0 5 1]
def threeI : List Nat := [0, 1, 3, 0, 3, 2, 0, 2, 1, 1, 2, 3, 4, 5, 7, 4, 7, 6, 4, 6, 5, 5, 6, 7, 8, 9, 11, 8, 11, 10, 8, 10, 9, 9, 10, 11]

theorem good_lockAll {m : Mesh Fix} (g : m.Good) (l : List Nat) : (m.lockAll l).Good :=
  ⟨g.wf.lockAll l, ⟨g.tri.holds⟩, ⟨g.simple.no_loop, g.simple.no_dup⟩⟩

/-- C118: an iteration on three tetrahedra with one free vertex, which moves -/
example : ∃ m m' : Mesh Fix, m.Shut ∧ (m.vs.filter m.vLock).length = 11 ∧ cohLoop lib 1 (Scalar.lit 1 1) (Scalar.lit 1 1) 2 30 1 sigs m = .ok () m' ∧
    m.Reworked m' ∧ ∃ v, m.vAlive v = true ∧ m.vLock v = false ∧ m'.vAlive v = true ∧ m'.vPos v ≠ m.vPos v := by
  obtain ⟨u, m, l, m1, h1, h2, h3⟩ := thenSt_iff (o := construct threeV threeI blank)
    (f := fun m => cohLoop lib 1 (Scalar.lit 1 1) (Scalar.lit 1 1) 2 30 1 sigs (m.lockAll (m.vs.take 11))) (p := fun m _ m' =>
    decide ((m.vs.filter (m.lockAll (m.vs.take 11)).vLock).length = 11) && (m.hes.all fun h => !(m.hBd h)) && (m.vs.any fun v => m.vAlive v && !((m.lockAll (m.vs.take 11)).vLock v) && m'.vAlive v && decide ((m'.vPos v).x.val ≠ (m.vPos v).x.val)))
    (by decide +kernel)
  cases u
  simp only [Bool.and_eq_true, decide_eq_true_eq, List.all_eq_true, List.any_eq_true, Bool.not_eq_true'] at h3
  obtain ⟨⟨h3, h4⟩, v, -, ⟨⟨h5, h6⟩, h7⟩, h8⟩ := h3
  have G := c01_construct_consistent (Owned.empty _) h1
  have S : (m.lockAll (m.vs.take 11)).Shut := .of (good_lockAll G _) fun h a => h4 h ((G.wf.hDense.mem h).2 a)
  exact ⟨_, m1, S, h3, h2, c118_rounds S h2, v, h5, h6, h7, fun e => h8 (congrArg (fun q => q.x.val) e)⟩

/-! ### The whole function -/

theorem ceil_fix (x : Fix) : ceilInt x = some 1 ∨ ceilInt x = some 2 := by
  unfold ceilInt
  show (if (if Scalar.lt (Scalar.lit 1 1) x = true then (1 : Int) + 1 else 1) ≤ 2147483647 then some (if Scalar.lt (Scalar.lit 1 1) x = true then (1 : Int) + 1 else 1) else none) = some 1 ∨
    (if (if Scalar.lt (Scalar.lit 1 1) x = true then (1 : Int) + 1 else 1) ≤ 2147483647 then some (if Scalar.lt (Scalar.lit 1 1) x = true then (1 : Int) + 1 else 1) else none) = some 2
  by_cases h : Scalar.lt (Scalar.lit 1 1) x = true
  · right; rw [if_pos h]; rfl
  · left; rw [if_neg h]; rfl

/-- the function for the radius `r` -/
def wholeAt (r : Int) (fuel iters : Nat) : M Fix Unit := do
  let (l, a) ← cohStart lib.ordV lib.solve fuel
  let _ ← meanEdgeLength
  let _ ← principalCurvatures lib.solve false
  let rows ← lib.heat
  let hks ← hksTable rows
  cohLoop lib r l a (rows.headD []).length fuel iters hks

theorem wholeAt_parts {m m' : Mesh Fix} {r : Int} {fuel iters : Nat} (e : wholeAt r fuel iters m = .ok () m') :
    ∃ l a m1 ln ks rows hks, cohStart lib.ordV lib.solve fuel m = .ok (l, a) m1 ∧ meanEdgeLength m1 = .ok ln m1 ∧ principalCurvatures lib.solve false m1 = .ok ks m1 ∧
      lib.heat m1 = .ok rows m1 ∧ hksTable rows m1 = .ok hks m1 ∧ cohLoop lib r l a (rows.headD []).length fuel iters hks m1 = .ok () m' := by
  unfold wholeAt at e
  rw [bind_apply] at e
  split at e
  · next x m1 e1 =>
    obtain ⟨l, a⟩ := x
    dsimp only at e
    obtain ⟨ln, k1, e⟩ := OnlyReads.step .meanEdgeLength e
    obtain ⟨ks, k2, e⟩ := OnlyReads.step (.principalCurvatures _ _) e
    obtain ⟨rows, k3, e⟩ := OnlyReads.step heat_reads e
    obtain ⟨hks, k4, e⟩ := OnlyReads.step (OnlyReads.hksTable _) e
    exact ⟨l, a, m1, ln, ks, rows, hks, e1, k1, k2, k3, k4, e⟩
  · cases e

theorem whole_of {m m' m'' : Mesh Fix} {fuel iters : Nat} (e : wholeAt 1 fuel iters m = .ok () m') (e' : wholeAt 2 fuel iters m = .ok () m'') :
    ∃ m3, contextCoherent lib fuel iters m = .ok () m3 := by
  obtain ⟨l, a, m1, ln, ks, rows, hks, e1, e2, e3, e4, e5, e6⟩ := wholeAt_parts e
  obtain ⟨l', a', m1', ln', ks', rows', hks', f1, f2, f3, f4, f5, f6⟩ := wholeAt_parts e'
  rw [e1] at f1; cases f1
  rw [e4] at f4; cases f4
  rw [e5] at f5; cases f5
  have r : ∀ k, patchRadius (ks.map maxCurve) ln = .ok k → patchRadiusM lib.solve m1 = .ok k m1 := by
    intro k hk
    unfold patchRadiusM
    rw [bind_apply, e2]; dsimp only
    rw [bind_apply, e3]; dsimp only
    rw [hk]; rfl
  have fin : ∀ k m3, patchRadius (ks.map maxCurve) ln = .ok k → cohLoop lib k l a (rows.headD []).length fuel iters hks m1 = .ok () m3 →
      contextCoherent lib fuel iters m = .ok () m3 := by
    intro k m3 hk hl
    unfold contextCoherent
    rw [bind_apply, e1]; dsimp only
    rw [bind_apply, r k hk]; dsimp only
    rw [bind_apply, e4]; dsimp only
    rw [bind_apply, e5]; dsimp only
    exact hl
  rcases ceil_fix ((Scalar.lit 1 1 / (ln * (Gmm.run (ks.map maxCurve) 20).mu 1) + Scalar.lit 1 1) * ln / ln) with h | h
  · exact ⟨m', fin 1 m' (by unfold patchRadius; dsimp only; rw [h]) e6⟩
  · exact ⟨m'', fin 2 m'' (by unfold patchRadius; dsimp only; rw [h]) f6⟩

/-- a check for `Mesh.Simple` -/
def simpleB (m : Mesh Fix) : Bool :=
  m.hes.all fun h => decide (m.hSrc h ≠ m.hSrc (m.hNext h)) && m.hes.all fun h' => decide (m.hSrc h = m.hSrc h' → m.hSrc (m.hNext h) = m.hSrc (m.hNext h') → h = h')

theorem simpleB_holds {m : Mesh Fix} (w : m.WF) (c : simpleB m = true) : m.Simple := by
  unfold simpleB at c
  simp only [List.all_eq_true, Bool.and_eq_true, decide_eq_true_eq] at c
  exact ⟨fun h a => (c h ((w.hDense.mem h).2 a)).1, fun h h' a a' => (c h ((w.hDense.mem h).2 a)).2 h' ((w.hDense.mem h').2 a')⟩

/-- a tetrahedron without one face -/
def cupV : List (Vec3 Fix) := [pt 0 0 0, pt 1 0 0, pt 0 1 0, pt 0 0 1]
def cupI : List Nat := [0, 1, 3, 0, 3, 2, 0, 2, 1]

/-- what is computed on it -/
theorem cup_run : ∃ m m' : Mesh Fix, construct cupV cupI blank = .ok () m ∧ contextCoherent lib 30 1 m = .ok () m' ∧ holedB m = true ∧ (∃ g ∈ m.fs, holeFaceB m g = true) ∧
    ∀ l a m1, cohStart lib.ordV lib.solve 30 m = .ok (l, a) m1 → simpleB m1 = true ∧ m1.vs = m.vs := by
  obtain ⟨u, m, l, m', h1, h2, h3⟩ := thenSt_iff (o := construct cupV cupI blank) (f := wholeAt 1 30 1) (p := fun m _ _ =>
    holedB m && (m.fs.any fun g => holeFaceB m g) && (match wholeAt 2 30 1 m with | .ok _ _ => true | _ => false) &&
    (match cohStart lib.ordV lib.solve 30 m with | .ok _ m1 => simpleB m1 && decide (m1.vs = m.vs) | _ => false)) (by decide +kernel)
  cases u
  simp only [Bool.and_eq_true, List.any_eq_true] at h3
  obtain ⟨⟨⟨h3, h4⟩, h5⟩, h6⟩ := h3
  obtain ⟨m3, e⟩ : ∃ m3, contextCoherent lib 30 1 m = .ok () m3 := by
    cases k : wholeAt 2 30 1 m with
    | err x => rw [k] at h5; cases h5
    | ok u m2 => cases u; exact whole_of h2 k
  refine ⟨m, m3, h1, e, h3, h4, fun l a m1 k => ?_⟩
  rw [k] at h6
  simpa using h6

/-- C118: the whole function on a tetrahedron without one face -/
example : ∃ m m' : Mesh Fix, m.Holed ∧ (∃ g, m.fAlive g = true ∧ m.HoleFace g) ∧ contextCoherent lib 30 1 m = .ok () m' ∧
    (∀ l a m1, cohStart lib.ordV lib.solve 30 m = .ok (l, a) m1 → m1.Simple) ∧
    (∀ l a m1, cohStart lib.ordV lib.solve 30 m = .ok (l, a) m1 → ∀ v, m1.vAlive v = true → m.vAlive v = true) ∧ m.ClosedUp m' := by
  obtain ⟨m, m3, h1, e, h3, ⟨g, hg, h4⟩, both⟩ := cup_run
  have G := c01_construct_consistent (Owned.empty _) h1
  have H := holedB_holds G.wf h3
  have none : ∀ l a m1, cohStart lib.ordV lib.solve 30 m = .ok (l, a) m1 → ∀ v, m1.vAlive v = true → m.vAlive v = true := fun l a m1 k v av =>
    (G.wf.vDense.mem v).1 ((both l a m1 k).2 ▸ ((c89_closed H (fun l => .refl l) k).wf.vDense.mem v).2 av)
  exact ⟨m, m3, H, ⟨g, (G.wf.fDense.mem g).1 hg, (holeFaceB_iff G.wf).1 h4⟩, e,
    fun l a m1 k => simpleB_holds (c89_closed H (fun l => .refl l) k).wf (both l a m1 k).1, none, (c118_idle H (fun l => .refl l) heat_reads none e).1⟩

end Fixed
end TinyMesh
