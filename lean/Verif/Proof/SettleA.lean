import Verif.Model.Settle
import Verif.Spec.Settle
import Verif.Proof.FrontA
import Verif.Proof.FrontQ
/-
The vertices inside: the search ends and finds all of them.
-/
namespace TinyMesh
open Orbit
variable {F : Type} [ScalarX F] {m : Mesh F}

theorem foldPure_find (q : Nat → Bool) (g : Nat → Nat) (l : List Nat) :
    foldPure (fun x (_ : List Nat) => (!q (g x), if q (g x) then [] else [g x])) l [] = ((l.map g).find? fun v => !q v).toList := by
  induction l with
  | nil => rfl
  | cons x l ih =>
    simp only [foldPure, List.map_cons, List.find?_cons]
    cases h : q (g x)
    · simp
    · simpa [h] using ih

theorem settleSeed_ok (w : m.WF) {f : Nat} (a : m.fAlive f = true) :
    settleSeed f m = .ok (((orbit m.hNext (m.fHe f)).map m.hSrc).find? fun v => !m.vLock v).toList m := by
  unfold settleSeed
  rw [bind_apply, getFHe_ok a]; dsimp only
  rw [w.circ_face a (fun x _ => (!m.vLock (m.hSrc x), if m.vLock (m.hSrc x) then [] else [m.hSrc x])) (fun x hx b => by
    rw [bind_apply, getSrc_ok hx]; dsimp only
    rw [bind_apply, getLock_ok (w.src_alive _ hx)]; rfl)]
  rw [foldPure_find]

theorem settleNear_ok (seen : List Nat) : ∀ us : List Nat, (∀ u ∈ us, m.vAlive u = true) →
    settleNear seen us m = .ok (us.filter fun u => !m.vLock u && !(seen.contains u)) m
  | [], _ => rfl
  | u :: us, a => by
    rw [settleNear, bind_apply, getLock_ok (a u (by simp))]; dsimp only
    rw [bind_apply, settleNear_ok seen us fun x hx => a x (by simp [hx])]; dsimp only
    rw [List.filter_cons]
    split <;> rfl

/-- the half-edges that start outside of a list of vertices -/
def Mesh.unseen (m : Mesh F) (l : List Nat) : Nat := (m.hes.filter fun h => !(l.contains (m.hSrc h))).length

omit [ScalarX F] in
theorem Mesh.WF.unseen_add (w : m.WF) {l : List Nat} {v : Nat} (a : m.vAlive v = true) (nv : v ∉ l) :
    m.unseen (l ++ [v]) + (orbit m.sig (m.vHe v)).length = m.unseen l := by
  have p : (orbit m.sig (m.vHe v)).Perm (m.hes.filter fun h => m.hSrc h == v) := by
    rw [List.perm_ext_iff_of_nodup (w.permSig.nodup_orbit (w.vHe_ok v a).1) (w.hDense.nodup.filter _)]
    intro h
    rw [w.mem_ring a, List.mem_filter, w.hDense.mem]
    simp [Mesh.HA]
  rw [p.length_eq]
  unfold Mesh.unseen
  generalize m.hes = hs
  induction hs with
  | nil => rfl
  | cons h hs ih =>
    simp only [List.filter_cons, List.contains_eq_mem, List.mem_append, List.mem_singleton] at ih ⊢
    by_cases e : m.hSrc h = v
    · simp only [e, nv, beq_self_eq_true, decide_false, Bool.not_false, if_true, List.length_cons, or_true, decide_true, Bool.not_true]
      simp only [Bool.false_eq_true, if_false] at ih ⊢
      omega
    · by_cases e' : m.hSrc h ∈ l
      · simp only [e, e', true_or, decide_true, Bool.not_true, Bool.false_eq_true, if_false, beq_iff_eq]
        exact ih
      · simp only [e, e', or_self, decide_false, Bool.not_false, if_true, beq_iff_eq, if_false, List.length_cons]
        omega

/-- the search from a queue: what is found is reachable, and nothing reachable is left out -/
theorem settleSearch_ok (w : m.WF) (s : Nat) : ∀ (fuel : Nat) (q seen : List Nat), q.length + m.unseen seen ≤ fuel →
    seen.Nodup → (∀ v ∈ q, m.vAlive v = true ∧ m.vLock v = false ∧ m.FreePath s v) → (∀ v ∈ seen, m.vAlive v = true ∧ m.vLock v = false ∧ m.FreePath s v) →
    (∀ h, m.hAlive h = true → m.hSrc h ∈ seen → m.vLock (m.hSrc (m.hNext h)) = false → m.hSrc (m.hNext h) ∈ seen ∨ m.hSrc (m.hNext h) ∈ q) →
    ∃ l, settleSearch fuel q seen m = .ok l m ∧ l.Nodup ∧ (∀ v ∈ l, m.vAlive v = true ∧ m.vLock v = false ∧ m.FreePath s v) ∧
      (∀ v, v ∈ q ∨ v ∈ seen → v ∈ l) ∧
      ∀ h, m.hAlive h = true → m.hSrc h ∈ l → m.vLock (m.hSrc (m.hNext h)) = false → m.hSrc (m.hNext h) ∈ l
  | fuel, [], seen, _, nd, _, hs, hc => by
    refine ⟨seen, by cases fuel <;> rfl, nd, hs, by simp, ?_⟩
    intro h a i u
    simpa using hc h a i u
  | 0, v :: q, seen, hf, _, _, _, _ => by simp at hf
  | fuel + 1, v :: q, seen, hf, nd, hq, hs, hc => by
    have av := (hq v (by simp)).1
    rw [settleSearch]
    by_cases i : v ∈ seen
    · rw [if_pos (by simpa using i)]
      obtain ⟨l, h1, h2, h3, h4, h5⟩ := settleSearch_ok w s fuel q seen (by simp at hf; omega) nd (fun x hx => hq x (by simp [hx])) hs (by
        intro h a k u
        rcases hc h a k u with c | c
        · exact .inl c
        · rcases List.mem_cons.1 c with c | c
          · exact .inl (c ▸ i)
          · exact .inr c)
      refine ⟨l, h1, h2, h3, ?_, h5⟩
      rintro x (hx | hx)
      · rcases List.mem_cons.1 hx with rfl | hx
        · exact h4 _ (.inr i)
        · exact h4 _ (.inl hx)
      · exact h4 _ (.inr hx)
    · rw [if_neg (by simpa using i), bind_apply, w.ringVerts_ok av]; dsimp only
      have ra : ∀ u ∈ (orbit m.sig (m.vHe v)).map fun h => m.hSrc (m.hNext h), m.vAlive u = true := by
        intro u hu
        obtain ⟨h, hh, rfl⟩ := List.mem_map.1 hu
        exact w.src_alive _ (w.next_alive _ ((w.mem_ring av).1 hh).1)
      rw [bind_apply, settleNear_ok _ _ ra]; dsimp only
      have U := w.unseen_add av i
      have hq' : ∀ x ∈ q ++ ((orbit m.sig (m.vHe v)).map fun h => m.hSrc (m.hNext h)).filter (fun u => !m.vLock u && !((seen ++ [v]).contains u)),
          m.vAlive x = true ∧ m.vLock x = false ∧ m.FreePath s x := by
        intro x hx
        rcases List.mem_append.1 hx with hx | hx
        · exact hq x (by simp [hx])
        · obtain ⟨h1, h2⟩ := List.mem_filter.1 hx
          refine ⟨ra x h1, ?_⟩
          obtain ⟨h, hh, rfl⟩ := List.mem_map.1 h1
          obtain ⟨k1, k2⟩ := (w.mem_ring av).1 hh
          have u : m.vLock (m.hSrc (m.hNext h)) = false := by
            simp only [Bool.and_eq_true, Bool.not_eq_true'] at h2
            exact h2.1
          exact ⟨u, .step (by rw [k2]; exact (hq v (by simp)).2.2) k1 u⟩
      obtain ⟨l, h1, h2, h3, h4, h5⟩ := settleSearch_ok w s fuel _ (seen ++ [v]) (by
          rw [List.length_append]
          have : (((orbit m.sig (m.vHe v)).map fun h => m.hSrc (m.hNext h)).filter (fun u => !m.vLock u && !((seen ++ [v]).contains u))).length ≤
              (orbit m.sig (m.vHe v)).length := by
            refine (List.length_filter_le _ _).trans ?_
            rw [List.length_map]
          simp at hf
          omega)
        (by
          rw [List.nodup_append]
          exact ⟨nd, by simp, by intro a ha b hb; simp at hb; subst hb; rintro rfl; exact i ha⟩) hq' (by
          intro x hx
          rcases List.mem_append.1 hx with hx | hx
          · exact hs x hx
          · rw [List.mem_singleton.1 hx]; exact hq v (by simp)) (by
          intro h a k u
          rcases List.mem_append.1 k with k | k
          · rcases hc h a k u with c | c
            · exact .inl (List.mem_append_left _ c)
            · rcases List.mem_cons.1 c with c | c
              · exact .inl (by rw [c]; simp)
              · exact .inr (List.mem_append_left _ c)
          · by_cases c : m.hSrc (m.hNext h) ∈ seen ++ [v]
            · exact .inl c
            · refine .inr (List.mem_append_right _ (List.mem_filter.2 ⟨List.mem_map.2 ⟨h, (w.mem_ring av).2 ⟨a, List.mem_singleton.1 k⟩, rfl⟩, ?_⟩))
              simp only [u, Bool.not_false, Bool.true_and, Bool.not_eq_true']
              simpa using c)
      refine ⟨l, h1, h2, h3, ?_, h5⟩
      rintro x (hx | hx)
      · rcases List.mem_cons.1 hx with rfl | hx
        · exact h4 _ (.inr (by simp))
        · exact h4 _ (.inl (List.mem_append_left _ hx))
      · exact h4 _ (.inr (List.mem_append_left _ hx))

omit [ScalarX F] in
/-- the half-edges of a face with three sides -/
theorem Mesh.WF.three_cyc (w : m.WF) {f : Nat} (a : m.fAlive f = true) (s3 : m.sides f = 3) {h : Nat} (ah : m.hAlive h = true) (fh : m.hFace h = f) :
    m.OnTri h ∧ m.hNext h ≠ h ∧ ∀ k, m.hAlive k = true → m.hFace k = f → k = h ∨ k = m.hNext h ∨ k = m.hNext (m.hNext h) := by
  obtain ⟨a0, e0⟩ := w.fHe_ok _ a
  have l3 := (w.loop_length a).trans s3
  have o := orbit_three l3
  have L := w.faceLoop a
  have cyc : m.hNext (m.hNext (m.hNext (m.fHe f))) = m.fHe f := by
    have ps := (w.permNext.period_spec a0).2.1
    have : period m.hNext (m.fHe f) = 3 := by rw [← length_orbit]; exact l3
    rw [this] at ps
    exact ps
  have nd := L.nodup
  rw [o] at nd
  have mem : ∀ k, m.hAlive k = true → m.hFace k = f → k = m.fHe f ∨ k = m.hNext (m.fHe f) ∨ k = m.hNext (m.hNext (m.fHe f)) := by
    intro k ak fk
    have := (L.mem k).2 ⟨ak, fk⟩
    rw [o] at this
    simpa using this
  have hm := mem h ah fh
  generalize m.fHe f = x at *
  have ne : x ≠ m.hNext x ∧ x ≠ m.hNext (m.hNext x) ∧ m.hNext x ≠ m.hNext (m.hNext x) := by simpa [not_or, and_assoc] using nd
  unfold Mesh.OnTri
  refine ⟨?_, ?_, fun k ak fk => ?_⟩
  · rcases hm with rfl | rfl | rfl <;> simp [cyc]
  · rcases hm with rfl | rfl | rfl
    · exact ne.1.symm
    · exact ne.2.2.symm
    · rw [cyc]; exact ne.2.1
  · have := mem k ak fk
    rcases hm with rfl | rfl | rfl <;> rcases this with rfl | rfl | rfl <;> simp [cyc]

omit [ScalarX F] in
/-- the corners of a triangle are neighbours -/
theorem Mesh.WF.tri_step (w : m.WF) {f : Nat} (a : m.fAlive f = true) (s3 : m.sides f = 3) {x y : Nat} (cx : m.CornerOf f x) (cy : m.CornerOf f y) (ne : x ≠ y) :
    ∃ h, m.hAlive h = true ∧ m.hSrc h = x ∧ m.hSrc (m.hNext h) = y := by
  obtain ⟨h, ah, fh, rfl⟩ := cx
  obtain ⟨k, ak, fk, rfl⟩ := cy
  obtain ⟨t, -, c⟩ := w.three_cyc a s3 ah fh
  have a1 := w.next_alive _ ah
  have a2 := w.next_alive _ a1
  rcases c k ak fk with rfl | rfl | rfl
  · exact absurd rfl ne
  · exact ⟨h, ah, rfl, rfl⟩
  · refine ⟨m.hRev (m.hNext (m.hNext h)), w.rev_alive _ a2, ?_, ?_⟩
    · rw [w.src_rev _ a2, t]
    · rw [← w.src_rev _ (w.rev_alive _ a2), w.rev_rev _ a2]

/-- C79: the search ends and returns the vertices inside, each of them once -/
theorem settleInside_ok (w : m.WF) {f : Nat} (a : m.fAlive f = true) (s3 : m.sides f = 3) :
    ∃ l, settleInside f m = .ok l m ∧ l.Nodup ∧ ∀ v, v ∈ l ↔ m.Inside f v := by
  unfold settleInside
  rw [bind_apply, settleSeed_ok w a]; dsimp only
  rw [bind_apply]
  show ∃ l, settleSearch (m.hes.length + 1) _ [] m = _ ∧ _
  have L := w.faceLoop a
  have cor : ∀ v, v ∈ (orbit m.hNext (m.fHe f)).map m.hSrc ↔ m.CornerOf f v := by
    intro v
    rw [List.mem_map]
    constructor
    · rintro ⟨h, hh, rfl⟩
      exact ⟨h, ((L.mem h).1 hh).1, ((L.mem h).1 hh).2, rfl⟩
    · rintro ⟨h, ah, fh, rfl⟩
      exact ⟨h, (L.mem h).2 ⟨ah, fh⟩, rfl⟩
  cases e : ((orbit m.hNext (m.fHe f)).map m.hSrc).find? fun v => !m.vLock v with
  | none =>
    refine ⟨[], rfl, List.nodup_nil, ?_⟩
    intro v
    simp only [List.not_mem_nil, false_iff]
    rintro ⟨s, cs, ls, -⟩
    have := List.find?_eq_none.1 e s ((cor s).2 cs)
    rw [ls] at this
    exact this rfl
  | some s =>
    have ls : m.vLock s = false := by simpa using List.find?_some e
    have cs := (cor s).1 (List.mem_of_find?_eq_some e)
    have as : m.vAlive s = true := by
      obtain ⟨h, ah, -, rfl⟩ := cs
      exact w.src_alive _ ah
    obtain ⟨l, h1, h2, h3, h4, h5⟩ := settleSearch_ok w s (m.hes.length + 1) [s] [] (by
        have : m.unseen [] ≤ m.hes.length := List.length_filter_le _ _
        simp; omega) List.nodup_nil (by
        intro v hv
        rw [List.mem_singleton.1 hv]
        exact ⟨as, ls, .here⟩) (by simp) (by simp)
    refine ⟨l, h1, h2, fun v => ⟨fun hv => ⟨s, cs, ls, (h3 v hv).2.2⟩, ?_⟩⟩
    have reach : ∀ {x y}, m.FreePath x y → x ∈ l → y ∈ l := by
      intro x y p hx
      induction p with
      | here => exact hx
      | step _ ah u ih => exact h5 _ ah ih u
    rintro ⟨x, cx, lx, px⟩
    refine reach px ?_
    have sl : s ∈ l := h4 s (by simp)
    by_cases ne : s = x
    · rw [← ne]; exact sl
    · obtain ⟨h, ah, rfl, rfl⟩ := w.tri_step a s3 cs cx ne
      exact h5 h ah sl lx

end TinyMesh
