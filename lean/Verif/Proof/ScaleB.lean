import Verif.Proof.ScaleA
/-
Programs that do the same in every unit of length.
-/
namespace TinyMesh
namespace Zoom
variable {g : Zoom} {α β γ δ : Type}

/-! ### Combinators -/

theorem Sim.ret {φ : α → β} {a : α} {b : β} (h : b = φ a) : g.Sim φ (pure a) (pure b) := by
  subst h; intro m; rfl

theorem Sim.pureId {a : α} : g.Sim id (pure a) (pure a) := fun _ => rfl

theorem Sim.bind {φ : α → β} {ψ : γ → δ} {x : M ℝ α} {y : M ℝ β} {f : α → M ℝ γ} {f' : β → M ℝ δ} (h : g.Sim φ x y)
    (k : ∀ a, g.Sim ψ (f a) (f' (φ a))) : g.Sim ψ (x >>= f) (y >>= f') := by
  intro m
  show M.bind y f' (g.mesh m) = g.out ψ (M.bind x f m)
  unfold M.bind
  rw [h m]
  cases x m with
  | ok a m' => exact k a m'
  | err e => rfl

theorem Sim.bindId {ψ : γ → δ} {x y : M ℝ α} {f : α → M ℝ γ} {f' : α → M ℝ δ} (h : g.Sim id x y)
    (k : ∀ a, g.Sim ψ (f a) (f' a)) : g.Sim ψ (x >>= f) (y >>= f') := Sim.bind h k

theorem Sim.bindPt {ψ : γ → δ} {x y : M ℝ (Vec3 ℝ)} {f : Vec3 ℝ → M ℝ γ} {f' : Vec3 ℝ → M ℝ δ} (h : g.Sim g.pt x y)
    (k : ∀ a, g.Sim ψ (f a) (f' (g.pt a))) : g.Sim ψ (x >>= f) (y >>= f') := Sim.bind h k

theorem Sim.bindPts {ψ : γ → δ} {x y : M ℝ (List (Vec3 ℝ))} {f : List (Vec3 ℝ) → M ℝ γ} {f' : List (Vec3 ℝ) → M ℝ δ}
    (h : g.Sim (List.map g.pt) x y) (k : ∀ a, g.Sim ψ (f a) (f' (a.map g.pt))) : g.Sim ψ (x >>= f) (y >>= f') := Sim.bind h k


theorem Sim.fail {φ : α → β} {e : Err} : g.Sim φ (M.fail e) (M.fail e) := fun _ => rfl

theorem Sim.assert {b : Bool} : g.Sim id (M.assert b) (M.assert b) := by
  intro m; unfold M.assert; split <;> rfl

theorem Sim.ite {φ : α → β} {c : Prop} [Decidable c] {x x' : M ℝ α} {y y' : M ℝ β} (h : g.Sim φ x y) (h' : g.Sim φ x' y') :
    g.Sim φ (if c then x else x') (if c then y else y') := by
  split
  · exact h
  · exact h'

theorem Sim.dite {φ : α → β} {c : Prop} [Decidable c] {x : c → M ℝ α} {x' : ¬ c → M ℝ α} {y : c → M ℝ β} {y' : ¬ c → M ℝ β}
    (h : ∀ i, g.Sim φ (x i) (y i)) (h' : ∀ i, g.Sim φ (x' i) (y' i)) :
    g.Sim φ (if i : c then x i else x' i) (if i : c then y i else y' i) := by
  split
  · exact h _
  · exact h' _

theorem Sim.read {f : Mesh ℝ → α} (h : ∀ m, f (g.mesh m) = f m) : g.Sim id (M.read f) (M.read f) := by
  intro m
  show Out.ok (f (g.mesh m)) (g.mesh m) = _
  rw [h]; rfl

/-! ### Accesses -/

theorem Sim.getSrc {h : Nat} : g.Sim id (TinyMesh.getSrc h) (TinyMesh.getSrc h) := by intro m; unfold TinyMesh.getSrc; simp only [mesh]; split <;> simp_all [out, mesh]
theorem Sim.getNext {h : Nat} : g.Sim id (TinyMesh.getNext h) (TinyMesh.getNext h) := by intro m; unfold TinyMesh.getNext; simp only [mesh]; split <;> simp_all [out, mesh]
theorem Sim.getRev {h : Nat} : g.Sim id (TinyMesh.getRev h) (TinyMesh.getRev h) := by intro m; unfold TinyMesh.getRev; simp only [mesh]; split <;> simp_all [out, mesh]
theorem Sim.getFace {h : Nat} : g.Sim id (TinyMesh.getFace h) (TinyMesh.getFace h) := by intro m; unfold TinyMesh.getFace; simp only [mesh]; split <;> simp_all [out, mesh]
theorem Sim.getHIdx {h : Nat} : g.Sim id (TinyMesh.getHIdx h) (TinyMesh.getHIdx h) := by intro m; unfold TinyMesh.getHIdx; simp only [mesh]; split <;> simp_all [out, mesh]
theorem Sim.getBd {h : Nat} : g.Sim id (TinyMesh.getBd h) (TinyMesh.getBd h) := by intro m; unfold TinyMesh.getBd; simp only [mesh]; split <;> simp_all [out, mesh]
theorem Sim.getVHe {h : Nat} : g.Sim id (TinyMesh.getVHe h) (TinyMesh.getVHe h) := by intro m; unfold TinyMesh.getVHe; simp only [mesh]; split <;> simp_all [out, mesh]
theorem Sim.getVIdx {h : Nat} : g.Sim id (TinyMesh.getVIdx h) (TinyMesh.getVIdx h) := by intro m; unfold TinyMesh.getVIdx; simp only [mesh]; split <;> simp_all [out, mesh]
theorem Sim.getLock {h : Nat} : g.Sim id (TinyMesh.getLock h) (TinyMesh.getLock h) := by intro m; unfold TinyMesh.getLock; simp only [mesh]; split <;> simp_all [out, mesh]
theorem Sim.getFHe {h : Nat} : g.Sim id (TinyMesh.getFHe h) (TinyMesh.getFHe h) := by intro m; unfold TinyMesh.getFHe; simp only [mesh]; split <;> simp_all [out, mesh]
theorem Sim.getFIdx {h : Nat} : g.Sim id (TinyMesh.getFIdx h) (TinyMesh.getFIdx h) := by intro m; unfold TinyMesh.getFIdx; simp only [mesh]; split <;> simp_all [out, mesh]
theorem Sim.getPos {h : Nat} : g.Sim g.pt (TinyMesh.getPos h) (TinyMesh.getPos h) := by intro m; unfold TinyMesh.getPos; simp only [mesh]; split <;> simp_all [out, mesh]

theorem Sim.setSrc {h x : Nat} : g.Sim id (TinyMesh.setSrc h x) (TinyMesh.setSrc h x) := by intro m; unfold TinyMesh.setSrc; simp only [mesh]; split <;> simp_all [out, mesh]
theorem Sim.setNext {h x : Nat} : g.Sim id (TinyMesh.setNext h x) (TinyMesh.setNext h x) := by intro m; unfold TinyMesh.setNext; simp only [mesh]; split <;> simp_all [out, mesh]
theorem Sim.setRev {h x : Nat} : g.Sim id (TinyMesh.setRev h x) (TinyMesh.setRev h x) := by intro m; unfold TinyMesh.setRev; simp only [mesh]; split <;> simp_all [out, mesh]
theorem Sim.setFace {h x : Nat} : g.Sim id (TinyMesh.setFace h x) (TinyMesh.setFace h x) := by intro m; unfold TinyMesh.setFace; simp only [mesh]; split <;> simp_all [out, mesh]
theorem Sim.setHIdx {h : Nat} {x : Int} : g.Sim id (TinyMesh.setHIdx h x) (TinyMesh.setHIdx h x) := by intro m; unfold TinyMesh.setHIdx; simp only [mesh]; split <;> simp_all [out, mesh]
theorem Sim.setBd {h : Nat} {x : Bool} : g.Sim id (TinyMesh.setBd h x) (TinyMesh.setBd h x) := by intro m; unfold TinyMesh.setBd; simp only [mesh]; split <;> simp_all [out, mesh]
theorem Sim.setVHe {h x : Nat} : g.Sim id (TinyMesh.setVHe h x) (TinyMesh.setVHe h x) := by intro m; unfold TinyMesh.setVHe; simp only [mesh]; split <;> simp_all [out, mesh]
theorem Sim.setVIdx {h : Nat} {x : Int} : g.Sim id (TinyMesh.setVIdx h x) (TinyMesh.setVIdx h x) := by intro m; unfold TinyMesh.setVIdx; simp only [mesh]; split <;> simp_all [out, mesh]
theorem Sim.setLock {h : Nat} {x : Bool} : g.Sim id (TinyMesh.setLock h x) (TinyMesh.setLock h x) := by intro m; unfold TinyMesh.setLock; simp only [mesh]; split <;> simp_all [out, mesh]
theorem Sim.setFHe {h x : Nat} : g.Sim id (TinyMesh.setFHe h x) (TinyMesh.setFHe h x) := by intro m; unfold TinyMesh.setFHe; simp only [mesh]; split <;> simp_all [out, mesh]
theorem Sim.setFIdx {h : Nat} {x : Int} : g.Sim id (TinyMesh.setFIdx h x) (TinyMesh.setFIdx h x) := by intro m; unfold TinyMesh.setFIdx; simp only [mesh]; split <;> simp_all [out, mesh]

theorem mesh_upd (m : Mesh ℝ) (v : Nat) (p : Vec3 ℝ) :
    upd (g.mesh m).vPos v (g.pt p) = fun x => g.pt (upd m.vPos v p x) := by
  funext x
  simp only [upd, mesh]
  split <;> rfl

theorem Sim.setPos {h : Nat} {p : Vec3 ℝ} : g.Sim id (TinyMesh.setPos h p) (TinyMesh.setPos h (g.pt p)) := by
  intro m
  unfold TinyMesh.setPos
  rw [mesh_upd]
  simp only [mesh]
  split <;> simp_all [out, mesh]

theorem Sim.newHalfedge : g.Sim id TinyMesh.newHalfedge TinyMesh.newHalfedge := fun _ => rfl
theorem Sim.newFace : g.Sim id TinyMesh.newFace TinyMesh.newFace := fun _ => rfl
theorem Sim.newVertex {p : Vec3 ℝ} : g.Sim id (TinyMesh.newVertex p) (TinyMesh.newVertex (g.pt p)) := by
  intro m
  unfold TinyMesh.newVertex
  rw [mesh_upd]
  rfl

theorem out_ite {φ : α → β} {c : Prop} [Decidable c] {a b : Out ℝ α} :
    g.out φ (if c then a else b) = if c then g.out φ a else g.out φ b := by split <;> rfl

theorem Sim.pushHalfedge {h : Nat} : g.Sim id (TinyMesh.pushHalfedge h) (TinyMesh.pushHalfedge h) := by
  intro m; unfold TinyMesh.pushHalfedge; rw [out_ite]; rfl

theorem Sim.removeHalfedge {h : Nat} : g.Sim id (TinyMesh.removeHalfedge h) (TinyMesh.removeHalfedge h) := by
  intro m
  unfold TinyMesh.removeHalfedge
  rw [out_ite]
  refine if_congr Iff.rfl ?_ rfl
  show (match arrayAt m.hes (m.hIdx h) with | none => _ | some w => _) = _
  cases arrayAt m.hes (m.hIdx h) with
  | none => rfl
  | some w =>
    dsimp only
    rw [out_ite, out_ite]
    refine if_congr Iff.rfl (if_congr Iff.rfl ?_ rfl) rfl
    show (match m.hes.getLast? with | none => _ | some l => _) = _
    cases m.hes.getLast? with
    | none => rfl
    | some l =>
      dsimp only
      rw [out_ite, out_ite]
      rfl

theorem Sim.removeFace {h : Nat} : g.Sim id (TinyMesh.removeFace h) (TinyMesh.removeFace h) := by
  intro m
  unfold TinyMesh.removeFace
  rw [out_ite]
  refine if_congr Iff.rfl ?_ rfl
  show (match arrayAt m.fs (m.fIdx h) with | none => _ | some w => _) = _
  cases arrayAt m.fs (m.fIdx h) with
  | none => rfl
  | some w =>
    dsimp only
    rw [out_ite, out_ite]
    refine if_congr Iff.rfl (if_congr Iff.rfl ?_ rfl) rfl
    show (match m.fs.getLast? with | none => _ | some l => _) = _
    cases m.fs.getLast? with
    | none => rfl
    | some l =>
      dsimp only
      rw [out_ite, out_ite]
      rfl

theorem Sim.removeVertex {h : Nat} : g.Sim id (TinyMesh.removeVertex h) (TinyMesh.removeVertex h) := by
  intro m
  unfold TinyMesh.removeVertex
  rw [out_ite]
  refine if_congr Iff.rfl ?_ rfl
  show (match arrayAt m.vs (m.vIdx h) with | none => _ | some w => _) = _
  cases arrayAt m.vs (m.vIdx h) with
  | none => rfl
  | some w =>
    dsimp only
    rw [out_ite, out_ite]
    refine if_congr Iff.rfl (if_congr (by simp only [mesh, pt_eq]) ?_ rfl) rfl
    show (match m.vs.getLast? with | none => _ | some l => _) = _
    cases m.vs.getLast? with
    | none => rfl
    | some l =>
      dsimp only
      rw [out_ite, out_ite]
      rfl

theorem Sim.vertexAt {i : Int} : g.Sim id (TinyMesh.vertexAt i) (TinyMesh.vertexAt i) := by
  intro m; unfold TinyMesh.vertexAt; simp only [mesh]; split <;> simp_all [out, mesh]
theorem Sim.halfedgeAt {i : Int} : g.Sim id (TinyMesh.halfedgeAt i) (TinyMesh.halfedgeAt i) := by
  intro m; unfold TinyMesh.halfedgeAt; simp only [mesh]; split <;> simp_all [out, mesh]
theorem Sim.faceAt {i : Int} : g.Sim id (TinyMesh.faceAt i) (TinyMesh.faceAt i) := by
  intro m; unfold TinyMesh.faceAt; simp only [mesh]; split <;> simp_all [out, mesh]

end Zoom

/-! ### Automation -/

/-- closes a goal `g.Sim φ x y` for a single call; every lemma about a function adds a case -/
syntax "zoom_leaf" : tactic

open Zoom in
macro_rules | `(tactic| zoom_leaf) => `(tactic| first
  | with_reducible assumption
  | with_reducible exact Sim.pureId
  | with_reducible exact Sim.fail
  | with_reducible exact Sim.getSrc
  | with_reducible exact Sim.getNext
  | with_reducible exact Sim.getRev
  | with_reducible exact Sim.getFace
  | with_reducible exact Sim.getHIdx
  | with_reducible exact Sim.getBd
  | with_reducible exact Sim.getVHe
  | with_reducible exact Sim.getVIdx
  | with_reducible exact Sim.getLock
  | with_reducible exact Sim.getFHe
  | with_reducible exact Sim.getFIdx
  | with_reducible exact Sim.getPos
  | with_reducible exact Sim.setSrc
  | with_reducible exact Sim.setNext
  | with_reducible exact Sim.setRev
  | with_reducible exact Sim.setFace
  | with_reducible exact Sim.setHIdx
  | with_reducible exact Sim.setBd
  | with_reducible exact Sim.setVHe
  | with_reducible exact Sim.setVIdx
  | with_reducible exact Sim.setLock
  | with_reducible exact Sim.setFHe
  | with_reducible exact Sim.setFIdx
  | with_reducible exact Sim.setPos
  | with_reducible exact Sim.newHalfedge
  | with_reducible exact Sim.newFace
  | with_reducible exact Sim.newVertex
  | with_reducible exact Sim.pushHalfedge
  | with_reducible exact Sim.removeHalfedge
  | with_reducible exact Sim.removeFace
  | with_reducible exact Sim.removeVertex
  | with_reducible exact Sim.vertexAt
  | with_reducible exact Sim.halfedgeAt
  | with_reducible exact Sim.faceAt
  | with_reducible exact Sim.assert
  | exact Sim.read fun _ => rfl)

open Zoom in
/-- one step through two programs -/
macro "zoom_step" : tactic => `(tactic| first
  | zoom_leaf
  | (refine Sim.bindId (by zoom_leaf) (fun _ => ?_); try dsimp only)
  | (refine Sim.bindPt (by zoom_leaf) (fun _ => ?_); try dsimp only)
  | (refine Sim.bindPts (by zoom_leaf) (fun _ => ?_); try dsimp only)
  | with_reducible refine Sim.ite ?_ ?_)

/-- steps through two programs as far as possible -/
macro "zoom" : tactic => `(tactic| repeat' zoom_step)

namespace Zoom
variable {g : Zoom} {α β γ δ : Type}

theorem Sim.addVertex {v : Nat} : g.Sim id (TinyMesh.addVertex v) (TinyMesh.addVertex v) := by
  unfold TinyMesh.addVertex
  zoom
  exact fun _ => rfl

theorem Sim.addFace {v : Nat} : g.Sim id (TinyMesh.addFace v) (TinyMesh.addFace v) := by
  unfold TinyMesh.addFace
  zoom
  exact fun _ => rfl

theorem Sim.addHalfedge {v : Nat} : g.Sim id (TinyMesh.addHalfedge v) (TinyMesh.addHalfedge v) := by
  unfold TinyMesh.addHalfedge
  zoom

theorem Sim.ringStep {v : Nat} : g.Sim id (TinyMesh.ringStep v) (TinyMesh.ringStep v) := by
  unfold TinyMesh.ringStep
  zoom

theorem Sim.faceStep {v : Nat} : g.Sim id (TinyMesh.faceStep v) (TinyMesh.faceStep v) := by
  unfold TinyMesh.faceStep
  zoom

theorem Sim.getDst {v : Nat} : g.Sim id (TinyMesh.getDst v) (TinyMesh.getDst v) := by
  unfold TinyMesh.getDst
  zoom

theorem Sim.circLoop {φ : α → β} {step : Nat → M ℝ Nat} {body : Nat → α → M ℝ (Bool × α)} {body' : Nat → β → M ℝ (Bool × β)}
    (hs : ∀ x, g.Sim id (step x) (step x)) (hb : ∀ x a, g.Sim (Prod.map id φ) (body x a) (body' x (φ a))) (s : Nat) (n : Nat) :
    ∀ (c : Nat) (a : α), g.Sim φ (TinyMesh.circLoop step body s n c a) (TinyMesh.circLoop step body' s n c (φ a)) := by
  induction n with
  | zero => intro c a; exact Sim.fail
  | succ n ih =>
    intro c a
    unfold TinyMesh.circLoop
    refine Sim.bind (hb c a) (fun r => ?_)
    obtain ⟨stop, r⟩ := r
    show g.Sim φ (if stop = true then pure r else _) (if stop = true then pure (φ r) else _)
    refine Sim.ite (Sim.ret rfl) ?_
    refine Sim.bindId (hs c) (fun k => ?_)
    exact Sim.ite (Sim.ret rfl) (ih k r)

theorem Sim.circ {φ : α → β} {step : Nat → M ℝ Nat} {body : Nat → α → M ℝ (Bool × α)} {body' : Nat → β → M ℝ (Bool × β)} {s : Nat} {a : α}
    (hs : ∀ x, g.Sim id (step x) (step x)) (hb : ∀ x a, g.Sim (Prod.map id φ) (body x a) (body' x (φ a))) :
    g.Sim φ (TinyMesh.circ step s a body) (TinyMesh.circ step s (φ a) body') := by
  intro m
  unfold TinyMesh.circ
  split
  · rfl
  · exact Sim.circLoop hs hb s m.hFresh s a m

theorem Sim.circId {step : Nat → M ℝ Nat} {body body' : Nat → α → M ℝ (Bool × α)} {s : Nat} {a : α}
    (hs : ∀ x, g.Sim id (step x) (step x)) (hb : ∀ x a, g.Sim id (body x a) (body' x a)) :
    g.Sim id (TinyMesh.circ step s a body) (TinyMesh.circ step s a body') :=
  Sim.circ (φ := id) hs (fun x a => by rw [Prod.map_id]; exact hb x a)

end Zoom

open Zoom in
macro_rules | `(tactic| zoom_leaf) => `(tactic| first
  | with_reducible exact Sim.addVertex
  | with_reducible exact Sim.addFace
  | with_reducible exact Sim.addHalfedge
  | with_reducible exact Sim.getDst
  | (with_reducible refine Sim.circId (fun _ => by with_reducible exact Sim.ringStep) (fun _ _ => ?_)) <;> (repeat' zoom_step) <;> done
  | (with_reducible refine Sim.circId (fun _ => by with_reducible exact Sim.faceStep) (fun _ _ => ?_)) <;> (repeat' zoom_step) <;> done)

namespace Zoom
variable {g : Zoom} {α β γ δ : Type}

theorem Sim.prevLoop {h : Nat} (n : Nat) : ∀ {x : Nat}, g.Sim id (TinyMesh.prevLoop h n x) (TinyMesh.prevLoop h n x) := by
  induction n with
  | zero => intro x; exact Sim.fail
  | succ n ih =>
    intro x
    unfold TinyMesh.prevLoop
    zoom
    exact ih

theorem Sim.getPrev {h : Nat} : g.Sim id (TinyMesh.getPrev h) (TinyMesh.getPrev h) := by
  unfold TinyMesh.getPrev
  zoom
  exact Sim.prevLoop _

theorem Sim.ringList {v : Nat} : g.Sim id (TinyMesh.ringList v) (TinyMesh.ringList v) := by unfold TinyMesh.ringList; zoom
theorem Sim.faceList {v : Nat} : g.Sim id (TinyMesh.faceList v) (TinyMesh.faceList v) := by unfold TinyMesh.faceList; zoom
theorem Sim.degree {v : Nat} : g.Sim id (TinyMesh.degree v) (TinyMesh.degree v) := by unfold TinyMesh.degree; zoom
theorem Sim.vIsBoundary {v : Nat} : g.Sim id (TinyMesh.vIsBoundary v) (TinyMesh.vIsBoundary v) := by unfold TinyMesh.vIsBoundary; zoom
theorem Sim.numCorners {v : Nat} : g.Sim id (TinyMesh.numCorners v) (TinyMesh.numCorners v) := by unfold TinyMesh.numCorners; zoom
theorem Sim.fIsHole {v : Nat} : g.Sim id (TinyMesh.fIsHole v) (TinyMesh.fIsHole v) := by unfold TinyMesh.fIsHole; zoom
theorem Sim.fIsBoundary {v : Nat} : g.Sim id (TinyMesh.fIsBoundary v) (TinyMesh.fIsBoundary v) := by unfold TinyMesh.fIsBoundary; zoom
theorem Sim.fIsLocked {v : Nat} : g.Sim id (TinyMesh.fIsLocked v) (TinyMesh.fIsLocked v) := by unfold TinyMesh.fIsLocked; zoom
theorem Sim.ringVerts {v : Nat} : g.Sim id (TinyMesh.ringVerts v) (TinyMesh.ringVerts v) := by unfold TinyMesh.ringVerts; zoom
theorem Sim.faceVerts {v : Nat} : g.Sim id (TinyMesh.faceVerts v) (TinyMesh.faceVerts v) := by unfold TinyMesh.faceVerts; zoom
theorem Sim.ringDsts {v : Nat} : g.Sim id (TinyMesh.ringDsts v) (TinyMesh.ringDsts v) := by unfold TinyMesh.ringDsts; zoom
theorem Sim.faceFaces {v : Nat} : g.Sim id (TinyMesh.faceFaces v) (TinyMesh.faceFaces v) := by unfold TinyMesh.faceFaces; zoom
theorem Sim.vertFaces {v : Nat} : g.Sim id (TinyMesh.vertFaces v) (TinyMesh.vertFaces v) := by unfold TinyMesh.vertFaces; zoom
theorem Sim.isPinned {v : Nat} : g.Sim id (TinyMesh.isPinned v) (TinyMesh.isPinned v) := by
  unfold TinyMesh.isPinned
  refine Sim.bindId Sim.vIsBoundary (fun _ => ?_)
  zoom
theorem Sim.assertVIdx {v : Nat} : g.Sim id (TinyMesh.assertVIdx v) (TinyMesh.assertVIdx v) := by unfold TinyMesh.assertVIdx; zoom
theorem Sim.assertHIdx {v : Nat} : g.Sim id (TinyMesh.assertHIdx v) (TinyMesh.assertHIdx v) := by unfold TinyMesh.assertHIdx; zoom

theorem Sim.getPosList (l : List Nat) : g.Sim (List.map g.pt) (TinyMesh.getPosList l) (TinyMesh.getPosList l) := by
  induction l with
  | nil => exact Sim.ret rfl
  | cons v l ih =>
    unfold TinyMesh.getPosList
    refine Sim.bindPt Sim.getPos (fun p => Sim.bindPts ih (fun ps => Sim.ret rfl))

theorem Sim.posList (l : List Nat) : g.Sim (List.map g.pt) (TinyMesh.posList l) (TinyMesh.posList l) := by
  induction l with
  | nil => exact Sim.ret rfl
  | cons v l ih =>
    unfold TinyMesh.posList
    refine Sim.bindPt Sim.getPos (fun p => Sim.bindPts ih (fun ps => Sim.ret rfl))

theorem Sim.idxList (l : List Nat) : g.Sim id (TinyMesh.idxList l) (TinyMesh.idxList l) := by
  induction l with
  | nil => exact Sim.pureId
  | cons v l ih => unfold TinyMesh.idxList; zoom

end Zoom

open Zoom in
macro_rules | `(tactic| zoom_leaf) => `(tactic| first
  | with_reducible exact Sim.getPrev
  | with_reducible exact Sim.ringList
  | with_reducible exact Sim.faceList
  | with_reducible exact Sim.degree
  | with_reducible exact Sim.vIsBoundary
  | with_reducible exact Sim.numCorners
  | with_reducible exact Sim.fIsHole
  | with_reducible exact Sim.fIsBoundary
  | with_reducible exact Sim.fIsLocked
  | with_reducible exact Sim.ringVerts
  | with_reducible exact Sim.faceVerts
  | with_reducible exact Sim.ringDsts
  | with_reducible exact Sim.faceFaces
  | with_reducible exact Sim.vertFaces
  | with_reducible exact Sim.isPinned
  | with_reducible exact Sim.assertVIdx
  | with_reducible exact Sim.assertHIdx
  | with_reducible exact Sim.getPosList _
  | with_reducible exact Sim.posList _
  | with_reducible exact Sim.idxList _)

end TinyMesh
