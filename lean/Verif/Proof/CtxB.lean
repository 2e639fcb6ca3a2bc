import Verif.Proof.CtxA
import Verif.Proof.CurvG
/-
The vertices of a patch; sources and targets.
-/
namespace TinyMesh
open Orbit
variable {F : Type} {m : Mesh F}

theorem vertexAt_run {i v : Nat} (h : m.vs[i]? = some v) : vertexAt (i : Int) m = .ok v m := by
  unfold vertexAt arrayAt
  rw [if_neg (by omega)]
  simp [h]

theorem foldAll_foldl {α β : Type} {body : α → β → M F β} {g : β → α → β} : ∀ (l : List α) (b : β), (∀ a ∈ l, ∀ b, body a b m = .ok (g b a) m) →
    foldAll body l b m = .ok (l.foldl g b) m
  | [], _, _ => rfl
  | a :: l, b, h => by
    rw [foldAll, bind_apply, h a (by simp)]
    exact foldAll_foldl l _ fun x hx => h x (by simp [hx])

/-- insertion into a set that is stored as a list -/
def addTo (l : List Nat) (k : Nat) : List Nat := if l.contains k then l else l ++ [k]

theorem mem_addTo {l : List Nat} {k x : Nat} : x ∈ addTo l k ↔ x ∈ l ∨ x = k := by
  unfold addTo
  split
  · rename_i h
    have := List.contains_iff_mem.1 h
    constructor
    · exact .inl
    · rintro (h | rfl) <;> assumption
  · simp

theorem nodup_addTo {l : List Nat} {k : Nat} (h : l.Nodup) : (addTo l k).Nodup := by
  unfold addTo
  split
  · exact h
  · rename_i hk
    rw [List.contains_iff_mem] at hk
    rw [List.nodup_append]
    exact ⟨h, List.nodup_singleton _, fun x hx y hy => by rw [List.mem_singleton] at hy; subst hy; rintro rfl; exact hk hx⟩

theorem mem_foldl_addTo {α : Type} (g : α → Nat) : ∀ (ks : List α) (l : List Nat) (x : Nat), x ∈ ks.foldl (fun l a => addTo l (g a)) l ↔ x ∈ l ∨ ∃ a ∈ ks, g a = x
  | [], l, x => by simp
  | k :: ks, l, x => by
    rw [List.foldl_cons, mem_foldl_addTo g ks, mem_addTo]
    simp only [List.mem_cons, exists_eq_or_imp]
    constructor
    · rintro ((h | h) | h)
      · exact .inl h
      · exact .inr (.inl h.symm)
      · exact .inr (.inr h)
    · rintro (h | h | h)
      · exact .inl (.inl h)
      · exact .inl (.inr h.symm)
      · exact .inr h

theorem nodup_foldl_addTo {α : Type} (g : α → Nat) : ∀ (ks : List α) {l : List Nat}, l.Nodup → (ks.foldl (fun l a => addTo l (g a)) l).Nodup
  | [], _, h => h
  | _ :: ks, _, h => nodup_foldl_addTo g ks (nodup_addTo h)

theorem Mesh.WF.idx_toNat (w : m.WF) {u : Nat} (a : m.vAlive u = true) : m.vs[(m.vIdx u).toNat]? = some u ∧ m.vIdx u = ((m.vIdx u).toNat : Int) := by
  obtain ⟨i, hi⟩ := w.vDense.exists_at a
  rw [w.vDense.idx_of hi]
  exact ⟨hi, rfl⟩

theorem Mesh.WF.patchSet_ok (w : m.WF) : ∀ (fs : List Nat), (∀ f ∈ fs, m.fAlive f = true) → ∀ l : List Nat, l.Nodup →
    ∃ l', foldAll (fun f l => do
      let vs ← faceVerts f
      foldAll (fun v l => do
        let i ← getVIdx v
        pure (if l.contains i.toNat then l else l ++ [i.toNat])) vs l) fs l m = .ok l' m ∧ l'.Nodup ∧
      ∀ k, k ∈ l' ↔ k ∈ l ∨ ∃ h, m.hAlive h = true ∧ m.hFace h ∈ fs ∧ (m.vIdx (m.hSrc h)).toNat = k := by
  intro fs
  induction fs with
  | nil => intro _ l nd; exact ⟨l, rfl, nd, fun k => by simp⟩
  | cons f fs ih =>
    intro ha l nd
    have a := ha f (by simp)
    have e := foldAll_foldl (m := m) (body := fun v (l : List Nat) => do
        let i ← getVIdx v
        pure (if l.contains i.toNat then l else l ++ [i.toNat])) (g := fun l v => addTo l (m.vIdx v).toNat)
      ((orbit m.hNext (m.fHe f)).map m.hSrc) l (fun v hv b => by
        obtain ⟨h, hh, rfl⟩ := List.mem_map.1 hv
        rw [bind_apply, getVIdx_ok (w.src_alive _ ((w.mem_loop a).1 hh).1)]; rfl)
    obtain ⟨l', e', nd', mem⟩ := ih (fun x hx => ha x (by simp [hx])) _ (nodup_foldl_addTo (fun v => (m.vIdx v).toNat) ((orbit m.hNext (m.fHe f)).map m.hSrc) nd)
    refine ⟨l', ?_, nd', fun k => ?_⟩
    · rw [foldAll, bind_apply, bind_apply, w.faceVerts_ok a]
      dsimp only
      rw [e]
      exact e'
    · rw [mem, mem_foldl_addTo]
      simp only [List.mem_map, exists_exists_and_eq_and, w.mem_loop a, List.mem_cons]
      constructor
      · rintro ((h | ⟨h, ⟨ah, fh⟩, e⟩) | ⟨h, ah, fh, e⟩)
        · exact .inl h
        · exact .inr ⟨h, ah, .inl fh, e⟩
        · exact .inr ⟨h, ah, .inr fh, e⟩
      · rintro (h | ⟨h, ah, fh | fh, e⟩)
        · exact .inl (.inl h)
        · exact .inl (.inr ⟨h, ⟨ah, fh⟩, e⟩)
        · exact .inr ⟨h, ah, fh, e⟩

theorem eachM_vertexAt (m : Mesh F) : ∀ ks : List Nat, (∀ k ∈ ks, ∃ u, m.vs[k]? = some u) → ∃ us, eachM (fun k => vertexAt k) ks m = .ok us m ∧
    us.length = ks.length ∧ ∀ j k : Nat, ks[j]? = some k → us[j]? = m.vs[k]?
  | [], _ => ⟨[], rfl, rfl, fun j k h => by simp at h⟩
  | k :: ks, h => by
    obtain ⟨u, hu⟩ := h k (by simp)
    obtain ⟨us, e, l, q⟩ := eachM_vertexAt m ks fun k hk => h k (by simp [hk])
    refine ⟨u :: us, by rw [eachM, bind_apply, vertexAt_run hu]; dsimp only; rw [bind_apply, e]; rfl, by simp [l], fun j k' hj => ?_⟩
    cases j with
    | zero => simp at hj; subst hj; simp [hu]
    | succ j => simp at hj; simpa using q j k' hj

theorem Mesh.InPatch.alive (w : m.WF) {r : Int} {v f : Nat} (h : m.InPatch r v f) : m.fAlive f = true := by
  obtain ⟨k, c, -⟩ := h
  exact c.alive w

theorem Mesh.WF.patchOf_ok (w : m.WF) {ordF ordV : List Nat → List Nat} (hF : ∀ l, (ordF l).Perm l) (hV : ∀ l, (ordV l).Perm l) (r : Int) {i v : Nat}
    (hi : m.vs[i]? = some v) :
    ∃ P, patchOf ordF ordV r i m = .ok P m ∧ P.faces.Nodup ∧ (∀ f, f ∈ P.faces ↔ m.InPatch r v f) ∧
      P.verts.Nodup ∧ (∀ u, u ∈ P.verts ↔ m.OnPatch r v u) ∧ P.ids.Nodup ∧ (∀ k, k ∈ P.ids ↔ ∃ u, m.vs[k]? = some u ∧ m.OnPatch r v u) ∧
      P.ids.length = P.verts.length ∧ ∀ j k : Nat, P.ids[j]? = some k → P.verts[j]? = m.vs[k]? := by
  have a := w.vDense.alive_at hi
  obtain ⟨fs, e1, nd1, mem1⟩ := w.patchFaces_ok r a
  obtain ⟨ids, e2, nd2, mem2⟩ := w.patchSet_ok (ordF fs) (fun f hf => ((mem1 f).1 ((hF fs).mem_iff.1 hf)).alive w) [] List.nodup_nil
  have on : ∀ k, k ∈ ids ↔ ∃ u, m.vs[k]? = some u ∧ m.OnPatch r v u := by
    intro k
    rw [mem2]
    simp only [List.not_mem_nil, false_or, (hF fs).mem_iff, mem1]
    constructor
    · rintro ⟨h, ah, fh, rfl⟩
      exact ⟨_, (w.idx_toNat (w.src_alive _ ah)).1, h, ah, rfl, fh⟩
    · rintro ⟨u, hu, h, ah, rfl, fh⟩
      exact ⟨h, ah, fh, by rw [w.vDense.idx_of hu]; rfl⟩
  obtain ⟨us, e3, len, at3⟩ := eachM_vertexAt m (ordV ids) fun k hk => by
    obtain ⟨u, hu, -⟩ := (on k).1 ((hV ids).mem_iff.1 hk)
    exact ⟨u, hu⟩
  have ndV : (ordV ids).Nodup := (hV ids).nodup_iff.2 nd2
  have onV : ∀ k, k ∈ ordV ids ↔ ∃ u, m.vs[k]? = some u ∧ m.OnPatch r v u := fun k => (hV ids).mem_iff.trans (on k)
  have memU : ∀ u, u ∈ us ↔ m.OnPatch r v u := by
    intro u
    constructor
    · intro hu
      obtain ⟨j, hj⟩ := List.mem_iff_getElem?.1 hu
      have hlt : j < (ordV ids).length := by rw [← len]; exact (List.getElem?_eq_some_iff.1 hj).1
      have := at3 j _ (List.getElem?_eq_getElem hlt)
      obtain ⟨u', hu', on'⟩ := (onV _).1 (List.getElem_mem hlt)
      rw [hj, hu'] at this
      cases this
      exact on'
    · intro hu
      obtain ⟨h, ah, rfl, -⟩ := id hu
      have hk := (w.idx_toNat (w.src_alive _ ah)).1
      obtain ⟨j, hj⟩ := List.mem_iff_getElem?.1 ((onV _).2 ⟨_, hk, hu⟩)
      have := at3 j _ hj
      rw [hk] at this
      exact List.mem_iff_getElem?.2 ⟨j, this⟩
  refine ⟨⟨ordF fs, ordV ids, us⟩, ?_, (hF fs).nodup_iff.2 nd1, fun f => (hF fs).mem_iff.trans (mem1 f), ?_, memU, ndV, onV, len.symm, at3⟩
  · rw [patchOf, bind_apply, vertexAt_run hi]
    dsimp only
    rw [bind_apply, e1]
    dsimp only
    rw [bind_apply, patchSet, e2]
    dsimp only
    rw [bind_apply, e3]
    rfl
  · rw [List.nodup_iff_injective_get]
    intro x y hxy
    have hx : x.1 < (ordV ids).length := len ▸ x.2
    have hy : y.1 < (ordV ids).length := len ▸ y.2
    have ex := at3 x.1 _ (List.getElem?_eq_getElem hx)
    have ey := at3 y.1 _ (List.getElem?_eq_getElem hy)
    have exy : us[x.1]? = us[y.1]? := by
      rw [List.getElem?_eq_getElem x.2, List.getElem?_eq_getElem y.2]
      exact congrArg some hxy
    rw [ex, ey] at exy
    obtain ⟨u, hu, -⟩ := (onV _).1 (List.getElem_mem hx)
    have hlt := (List.getElem?_eq_some_iff.1 hu).1
    have := (List.getElem?_inj hlt w.vDense.nodup).1 exy
    have := (ndV.getElem_inj_iff).1 this
    exact Fin.ext this

theorem srcTgt_ok (w : m.WF) : ∀ is : List Nat, (∀ i ∈ is, i < m.vs.length) →
    srcTgt is m = .ok (is.filter (fun i => (m.vs[i]?).any m.vLock), is.filter (fun i => !(m.vs[i]?).any m.vLock)) m
  | [], _ => rfl
  | i :: is, h => by
    have hl := h i (by simp)
    have hi := List.getElem?_eq_getElem hl
    have a := w.vDense.alive_at hi
    rw [srcTgt, bind_apply, vertexAt_run hi]
    dsimp only
    rw [bind_apply, getLock_ok a]
    dsimp only
    rw [bind_apply, srcTgt_ok w is fun x hx => h x (by simp [hx])]
    dsimp only
    rw [List.filter_cons, List.filter_cons, hi, Option.any_some]
    cases m.vLock m.vs[i] <;> rfl

end TinyMesh
