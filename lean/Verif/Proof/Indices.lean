import Verif.Model.Metrics
import Verif.Proof.ConP
import Verif.Proof.Haus
import Verif.Spec.Report
/-
What `getVertexIndices` reports on any consistent mesh.
-/
namespace TinyMesh
open Orbit
variable {F : Type} [Scalar F] {m : Mesh F}

omit [Scalar F] in
theorem Mesh.WF.hole_iff (w : m.WF) {f : Nat} (a : m.fAlive f = true) :
    ((orbit m.hNext (m.fHe f)).all m.hBd = true) ↔ m.HoleFace f := by
  rw [List.all_eq_true]
  constructor
  · intro h x ax hx
    exact h x ((w.mem_loop a).2 ⟨ax, hx⟩)
  · intro h x hx
    obtain ⟨ax, hx⟩ := (w.mem_loop a).1 hx
    exact h x ax hx

open Classical in
theorem Mesh.WF.indices_ok (w : m.WF) (tri : m.TriOrHole) :
    getVertexIndices m = .ok ((m.fs.filter (fun f => decide (¬ m.HoleFace f))).map m.triple) m := by
  have key : ∀ l : List Nat, (∀ f ∈ l, m.fAlive f = true) →
      vertexIndicesLoop l m = .ok ((l.filter (fun f => decide (¬ m.HoleFace f))).map m.triple) m := by
    intro l
    induction l with
    | nil => intro _; rfl
    | cons f l ih =>
      intro hl
      have a := hl f (by simp)
      have ih := ih (fun x hx => hl x (by simp [hx]))
      simp only [vertexIndicesLoop, bind_apply, w.fIsHole_ok a]
      by_cases hh : m.HoleFace f
      · rw [if_pos ((w.hole_iff a).2 hh), ih]
        simp [hh]
      · rw [if_neg (by rw [w.hole_iff a]; exact hh)]
        obtain ⟨a1, e1⟩ := w.fHe_ok f a
        have ht : m.OnTri (m.fHe f) := by
          rcases tri.holds _ a1 with h | h
          · exact h
          · exact absurd (fun x ax hx => (h x ax (by rw [hx, e1])).1) hh
        obtain ⟨q, aq, eq, hq⟩ := w.getPrev_ok a1
        have hq' : q = m.hNext (m.hNext (m.fHe f)) :=
          w.next_inj _ _ aq (w.next_alive _ (w.next_alive _ a1)) (by rw [eq]; exact ht.symm)
        simp only [bind_apply, getFHe_ok a, getSrc_ok a1, getVIdx_ok (w.src_alive _ a1), getNext_ok a1,
          getSrc_ok (w.next_alive _ a1), getVIdx_ok (w.src_alive _ (w.next_alive _ a1)), hq, getSrc_ok aq,
          getVIdx_ok (w.src_alive _ aq), ih]
        rw [List.filter_cons_of_pos (by simpa using hh), hq']
        rfl
  simp only [getVertexIndices, bind_apply, M.read]
  exact key _ (fun f hf => (w.fDense.mem f).1 hf)

open Classical in
theorem Mesh.Good.indices_ok (g : m.Good) :
    getVertexIndices m = .ok ((m.fs.filter (fun f => decide (¬ m.HoleFace f))).map m.triple) m := g.wf.indices_ok g.tri

theorem Reads.cons {F : Type} {V : List (Vec3 F)} {I : List Nat} {ts : List (Triangle F)} (h : Reads V I ts) {a b c : Nat}
    {t : Triangle F} (ha : V[a]? = some t.p0) (hb : V[b]? = some t.p1) (hc : V[c]? = some t.p2) :
    Reads V (a :: b :: c :: I) (t :: ts) := by
  refine ⟨by simp [h.1]; omega, ?_⟩
  rintro (_ | k) t' hk
  · simp only [List.getElem?_cons_zero, Option.some.injEq] at hk
    subst hk
    exact ⟨a, b, c, rfl, rfl, rfl, ha, hb, hc⟩
  · obtain ⟨a', b', c', g⟩ := h.2 k t' (by simpa using hk)
    refine ⟨a', b', c', ?_⟩
    have e : 3 * (k + 1) = 3 * k + 3 := by ring
    have e' : 3 * (k + 1) + 1 = 3 * k + 1 + 3 := by ring
    have e'' : 3 * (k + 1) + 2 = 3 * k + 2 + 3 := by ring
    rw [e', e'', e]
    simpa only [List.getElem?_cons_succ] using g

theorem reads_flat {α F : Type} {V : List (Vec3 F)} {f : α → Int × Int × Int} {g : α → Triangle F} : ∀ {l : List α},
    (∀ x ∈ l, V[(f x).1.toNat]? = some (g x).p0 ∧ V[(f x).2.1.toNat]? = some (g x).p1 ∧
      V[(f x).2.2.toNat]? = some (g x).p2) → Reads V (flatIdx (l.map f)) (l.map g)
  | [], _ => ⟨rfl, by simp⟩
  | x :: l, h => by
    obtain ⟨h0, h1, h2⟩ := h x (by simp)
    exact (reads_flat (fun y hy => h y (by simp [hy]))).cons h0 h1 h2

open Classical in
/-- the soup of a mesh -/
noncomputable def Mesh.soupR (m : Mesh XR) (p : Nat → Vec3 ℝ) : Soup ℝ :=
  ⟨m.vs.map p, flatIdx ((m.fs.filter (fun f => decide (¬ m.HoleFace f))).map m.triple)⟩

open Classical in
noncomputable def Mesh.trisR (m : Mesh XR) (p : Nat → Vec3 ℝ) : List (Triangle ℝ) :=
  (m.fs.filter (fun f => decide (¬ m.HoleFace f))).map (m.faceTri p)

theorem Mesh.WF.soup_ok {m : Mesh XR} (w : m.WF) (tri : m.TriOrHole) {p : Nat → Vec3 ℝ} (hp : m.At p) :
    soupOf m = .ok (m.soupR p).fin ∧ Reads (m.soupR p).pos (m.soupR p).idx (m.trisR p) := by
  refine ⟨?_, ?_⟩
  · unfold soupOf
    rw [w.getVertices_ok]
    simp only [w.indices_ok tri]
    have : m.vs.map m.vPos = (m.vs.map p).map Vec3.fin := by
      rw [List.map_map]
      apply List.map_congr_left
      intro v hv
      exact hp v ((w.vDense.mem v).1 hv)
    rw [this]
    rfl
  · apply reads_flat
    have key : ∀ v, m.vAlive v = true → (m.vs.map p)[(m.vIdx v).toNat]? = some (p v) := by
      intro v hv
      obtain ⟨i, hi, e⟩ := List.mem_iff_getElem.1 ((w.vDense.mem v).2 hv)
      have := w.vDense.idx i hi
      rw [e] at this
      rw [this, Int.toNat_natCast, List.getElem?_map, List.getElem?_eq_getElem hi, e]
      rfl
    intro f hf
    have a := (w.fDense.mem f).1 (List.mem_of_mem_filter hf)
    obtain ⟨a1, e1⟩ := w.fHe_ok f a
    exact ⟨key _ (w.src_alive _ a1), key _ (w.src_alive _ (w.next_alive _ a1)),
      key _ (w.src_alive _ (w.next_alive _ (w.next_alive _ a1)))⟩

theorem Mesh.Good.soup_ok {m : Mesh XR} (g : m.Good) {p : Nat → Vec3 ℝ} (hp : m.At p) :
    soupOf m = .ok (m.soupR p).fin ∧ Reads (m.soupR p).pos (m.soupR p).idx (m.trisR p) := g.wf.soup_ok g.tri hp

theorem Mesh.Good.mem_trisR {m : Mesh XR} (g : m.Good) {p : Nat → Vec3 ℝ} {t : Triangle ℝ} :
    t ∈ m.trisR p ↔ ∃ f, m.fAlive f = true ∧ ¬ m.HoleFace f ∧ m.faceTri p f = t := by
  unfold trisR
  simp only [List.mem_map, List.mem_filter, decide_eq_true_eq, g.wf.fDense.mem]
  constructor
  · rintro ⟨f, ⟨a, b⟩, c⟩; exact ⟨f, a, b, c⟩
  · rintro ⟨f, a, b, c⟩; exact ⟨f, ⟨a, b⟩, c⟩

theorem Mesh.Good.hausdorff_ok {a b : Mesh XR} (ga : a.Good) (gb : b.Good) {p q : Nat → Vec3 ℝ} (pa : a.At p) (pb : b.At q)
    (na : ∀ v, a.vAlive v = true → (p v).Near) (nb : ∀ v, b.vAlive v = true → (q v).Near)
    (fa : ∃ f, a.fAlive f = true ∧ ¬ a.HoleFace f) (fb : ∃ f, b.fAlive f = true ∧ ¬ b.HoleFace f)
    {lib : Lib XR} (std : lib.Std) :
    ∃ d, meshHausdorff lib a b = .ok (.fin d) ∧
      IsGreatest ({x | ∃ v, a.vAlive v = true ∧ x = minD (b.trisR q) (p v)} ∪
        {x | ∃ v, b.vAlive v = true ∧ x = minD (a.trisR p) (q v)}) d := by
  obtain ⟨sa, ra⟩ := ga.soup_ok pa
  obtain ⟨sb, rb⟩ := gb.soup_ok pb
  have va : (a.soupR p).Valid (a.trisR p) := ⟨ra, by
    obtain ⟨f, h1, h2⟩ := fa
    exact List.ne_nil_of_mem (ga.mem_trisR.2 ⟨f, h1, h2, rfl⟩)⟩
  have vb : (b.soupR q).Valid (b.trisR q) := ⟨rb, by
    obtain ⟨f, h1, h2⟩ := fb
    exact List.ne_nil_of_mem (gb.mem_trisR.2 ⟨f, h1, h2, rfl⟩)⟩
  have na' : ∀ x ∈ (a.soupR p).pos, x.Near := by
    intro x hx
    obtain ⟨v, hv, rfl⟩ := List.mem_map.1 hx
    exact na v ((ga.wf.vDense.mem v).1 hv)
  have nb' : ∀ x ∈ (b.soupR q).pos, x.Near := by
    intro x hx
    obtain ⟨v, hv, rfl⟩ := List.mem_map.1 hx
    exact nb v ((gb.wf.vDense.mem v).1 hv)
  obtain ⟨d, e, m, u⟩ := TinyMesh.hausdorff_ok std va vb na' nb'
  have iff : ∀ x, x ∈ (a.soupR p).pos.map (minD (b.trisR q)) ++ (b.soupR q).pos.map (minD (a.trisR p)) ↔
      x ∈ {x | ∃ v, a.vAlive v = true ∧ x = minD (b.trisR q) (p v)} ∪
        {x | ∃ v, b.vAlive v = true ∧ x = minD (a.trisR p) (q v)} := by
    intro x
    simp only [soupR, List.map_map, List.mem_append, List.mem_map, Function.comp, Set.mem_union, Set.mem_setOf_eq,
      ga.wf.vDense.mem, gb.wf.vDense.mem, eq_comm]
  refine ⟨d, ?_, (iff d).1 m, fun x hx => u x ((iff x).2 hx)⟩
  unfold meshHausdorff
  rw [sa, sb]
  exact e

end TinyMesh
