import Verif.Model.Context
import Verif.Spec.Context
import Verif.Proof.SimA
/-
The search for the faces of a patch.
-/
namespace TinyMesh
open Orbit
variable {F : Type} {m : Mesh F}

theorem Mesh.FaceChain.pos {v k f : Nat} (c : m.FaceChain v k f) : 1 ≤ k := by cases c <;> omega

theorem Mesh.FaceChain.alive (w : m.WF) {v k f : Nat} (c : m.FaceChain v k f) : m.fAlive f = true := by
  cases c with
  | first a _ => exact w.face_alive _ a
  | more _ a => exact w.face_alive _ (w.rev_alive _ a)

theorem Mesh.WF.faceFaces_run (w : m.WF) {f : Nat} (a : m.fAlive f = true) :
    faceFaces f m = .ok ((orbit m.hNext (m.fHe f)).map fun h => m.hFace (m.hRev h)) m := by
  simp only [faceFaces, bind_apply, getFHe_ok a]
  refine (w.circ_face a (fun x l => (false, l ++ [m.hFace (m.hRev x)]))
    (fun x hx _ => by simp [getRev_ok hx, getFace_ok (w.rev_alive _ hx)]) _).trans ?_
  rw [foldPure_map]
  simp

/-- the state of the search: the queue `q`, the visited faces with their distances `S` -/
structure Search (m : Mesh F) (r : Int) (v : Nat) (q S : List (Nat × Int)) : Prop where
  sound : ∀ x ∈ S ++ q, ∃ k : Nat, x.2 = (k : Int) ∧ m.FaceChain v k x.1 ∧ (k = 1 ∨ (k : Int) ≤ r)
  sorted : (S ++ q).Pairwise fun x y => x.2 ≤ y.2
  spread : ∀ x y q', q = x :: q' → y ∈ q → y.2 ≤ x.2 + 1
  start : ∀ h, m.hAlive h = true → m.hSrc h = v → ∃ x ∈ S ++ q, x.1 = m.hFace h ∧ x.2 ≤ 1
  near : ∀ x ∈ S, ∀ h, m.hAlive h = true → m.hFace h = x.1 → x.2 + 1 ≤ r → ∃ y ∈ S ++ q, y.1 = m.hFace (m.hRev h) ∧ y.2 ≤ x.2 + 1
  nodup : (S.map Prod.fst).Nodup

theorem Search.skip {r : Int} {v f : Nat} {d : Int} {q S : List (Nat × Int)} (I : Search m r v ((f, d) :: q) S) (hf : f ∈ S.map Prod.fst) :
    Search m r v q S := by
  obtain ⟨⟨f', d0⟩, hx, rfl⟩ := List.mem_map.1 hf
  have hd : d0 ≤ d := (List.pairwise_append.1 I.sorted).2.2 _ hx (f', d) (by simp)
  have move : ∀ g : Nat, ∀ b : Int, (∃ y ∈ S ++ (f', d) :: q, y.1 = g ∧ y.2 ≤ b) → ∃ y ∈ S ++ q, y.1 = g ∧ y.2 ≤ b := by
    rintro g b ⟨y, hy, e, l⟩
    rcases List.mem_append.1 hy with h | h
    · exact ⟨y, List.mem_append_left _ h, e, l⟩
    · rcases List.mem_cons.1 h with h | h
      · subst h; exact ⟨_, List.mem_append_left _ hx, e, hd.trans l⟩
      · exact ⟨y, List.mem_append_right _ h, e, l⟩
  have sub : (S ++ q).Sublist (S ++ (f', d) :: q) := List.Sublist.append_left (List.sublist_cons_self _ _) _
  refine ⟨fun x hx => I.sound x (sub.mem hx), I.sorted.sublist sub, ?_, fun h a s => move _ _ (I.start h a s),
    fun x hx h a s l => move _ _ (I.near x hx h a s l), I.nodup⟩
  rintro x y q' rfl hy
  have h1 := I.spread _ y _ rfl (List.mem_cons_of_mem _ hy)
  have h2 : d ≤ x.2 := by
    have := (List.pairwise_append.1 I.sorted).2.1
    exact (List.pairwise_cons.1 this).1 x (by simp)
  simp only at h1
  omega

theorem Search.visit (w : m.WF) {r : Int} {v f : Nat} {d : Int} {q S : List (Nat × Int)} (I : Search m r v ((f, d) :: q) S) (hf : f ∉ S.map Prod.fst)
    (a : m.fAlive f = true) :
    Search m r v (q ++ patchNear r (S.map Prod.fst ++ [f]) d ((orbit m.hNext (m.fHe f)).map fun h => m.hFace (m.hRev h))) (S ++ [(f, d)]) := by
  have mem : ∀ x : Nat × Int, x ∈ patchNear r (S.map Prod.fst ++ [f]) d ((orbit m.hNext (m.fHe f)).map fun h => m.hFace (m.hRev h)) ↔
      ∃ h, m.hAlive h = true ∧ m.hFace h = f ∧ m.hFace (m.hRev h) ∉ S.map Prod.fst ∧ m.hFace (m.hRev h) ≠ f ∧ d + 1 ≤ r ∧ x = (m.hFace (m.hRev h), d + 1) := by
    intro x
    simp only [patchNear, List.mem_map, List.mem_filter, Bool.and_eq_true, Bool.not_eq_true', decide_eq_true_eq, w.mem_loop a]
    constructor
    · rintro ⟨g, ⟨⟨h, ⟨ah, fh⟩, rfl⟩, hn, l⟩, rfl⟩
      have hn' : m.hFace (m.hRev h) ∉ S.map Prod.fst ++ [f] := by
        intro hc; rw [List.contains_iff_mem.2 hc] at hn; exact absurd hn (by simp)
      rw [List.mem_append, List.mem_singleton, not_or] at hn'
      exact ⟨h, ah, fh, by simpa using hn'.1, hn'.2, l, rfl⟩
    · rintro ⟨h, ah, fh, n1, n2, l, rfl⟩
      refine ⟨_, ⟨⟨h, ⟨ah, fh⟩, rfl⟩, ?_, l⟩, rfl⟩
      rw [← Bool.not_eq_true, List.contains_iff_mem, List.mem_append, List.mem_singleton, not_or]
      exact ⟨by simpa using n1, n2⟩
  set P := patchNear r (S.map Prod.fst ++ [f]) d ((orbit m.hNext (m.fHe f)).map fun h => m.hFace (m.hRev h)) with hP
  have old : ∀ x ∈ S ++ (f, d) :: q, x ∈ S ++ [(f, d)] ++ (q ++ P) := by
    intro x hx; simp only [List.mem_append, List.mem_cons, List.not_mem_nil, or_false] at hx ⊢; tauto
  have hdq : ∀ y ∈ q, d ≤ y.2 ∧ y.2 ≤ d + 1 := fun y hy =>
    ⟨(List.pairwise_cons.1 (List.pairwise_append.1 I.sorted).2.1).1 y hy, I.spread _ y _ rfl (List.mem_cons_of_mem _ hy)⟩
  have hS : ∀ x ∈ S, x.2 ≤ d := fun x hx => (List.pairwise_append.1 I.sorted).2.2 _ hx (f, d) (by simp)
  refine ⟨?_, ?_, ?_, ?_, ?_, ?_⟩
  · intro x hx
    by_cases hp : x ∈ P
    · obtain ⟨h, ah, fh, -, -, l, rfl⟩ := (mem x).1 hp
      obtain ⟨k, hk, c, -⟩ := I.sound (f, d) (by simp)
      simp only at hk c
      exact ⟨k + 1, by simp only [hk]; push_cast; rfl, .more (fh ▸ c) ah, .inr (by rw [hk] at l; push_cast; exact l)⟩
    · refine I.sound x ?_
      simp only [List.mem_append, List.mem_cons, List.not_mem_nil, or_false] at hx ⊢; tauto
  · have e : S ++ [(f, d)] ++ (q ++ P) = (S ++ (f, d) :: q) ++ P := by simp
    rw [e, List.pairwise_append]
    refine ⟨I.sorted, ?_, ?_⟩
    · refine List.Pairwise.imp_of_mem (R := fun _ _ => True) (fun {x y} hx hy _ => ?_) (List.pairwise_of_forall fun _ _ => trivial)
      obtain ⟨_, _, _, _, _, _, rfl⟩ := (mem x).1 hx
      obtain ⟨_, _, _, _, _, _, rfl⟩ := (mem y).1 hy
      exact le_refl _
    · intro x hx y hy
      obtain ⟨_, _, _, _, _, _, rfl⟩ := (mem y).1 hy
      simp only
      rcases List.mem_append.1 hx with h | h
      · have := hS x h; omega
      · rcases List.mem_cons.1 h with rfl | h
        · simp only; omega
        · exact (hdq x h).2
  · intro x y q' e hy
    have hy' : y.2 ≤ d + 1 := by
      rcases List.mem_append.1 hy with h | h
      · exact (hdq y h).2
      · obtain ⟨_, _, _, _, _, _, rfl⟩ := (mem y).1 h; exact le_refl _
    have hx' : d ≤ x.2 := by
      have hx : x ∈ q ++ P := by rw [e]; simp
      rcases List.mem_append.1 hx with h | h
      · exact (hdq x h).1
      · obtain ⟨_, _, _, _, _, _, rfl⟩ := (mem x).1 h; simp only; omega
    omega
  · intro h ah s
    obtain ⟨x, hx, e, l⟩ := I.start h ah s
    exact ⟨x, old x hx, e, l⟩
  · intro x hx h ah fh l
    rcases List.mem_append.1 hx with hx | hx
    · obtain ⟨y, hy, e, l'⟩ := I.near x hx h ah fh l
      exact ⟨y, old y hy, e, l'⟩
    · rw [List.mem_singleton] at hx
      subst hx
      simp only at fh l ⊢
      by_cases h1 : m.hFace (m.hRev h) ∈ S.map Prod.fst
      · obtain ⟨y, hy, e⟩ := List.mem_map.1 h1
        exact ⟨y, by simp [hy], e, by have := hS y hy; omega⟩
      · by_cases h2 : m.hFace (m.hRev h) = f
        · exact ⟨(f, d), by simp, h2.symm, by simp⟩
        · exact ⟨_, List.mem_append_right _ (List.mem_append_right _ ((mem _).2 ⟨h, ah, fh, h1, h2, l, rfl⟩)), rfl, le_refl _⟩
  · rw [List.map_append, List.map_singleton, List.nodup_append]
    exact ⟨I.nodup, List.nodup_singleton _, fun x hx y hy => by rw [List.mem_singleton] at hy; subst hy; rintro rfl; exact hf hx⟩

/-- the half-edges of faces that were not visited -/
def Mesh.unseenF (m : Mesh F) (l : List Nat) : Nat := m.hes.countP fun h => !(l.contains (m.hFace h))

theorem Mesh.unseenF_visit (m : Mesh F) {l : List Nat} {f : Nat} (hf : f ∉ l) : m.unseenF (l ++ [f]) + m.sides f = m.unseenF l := by
  unfold Mesh.unseenF Mesh.sides
  induction m.hes with
  | nil => rfl
  | cons h t ih =>
    rw [List.countP_cons, List.countP_cons, List.countP_cons]
    have k : (if (!((l ++ [f]).contains (m.hFace h))) = true then 1 else 0) + (if (m.hFace h == f) = true then 1 else 0) =
        if (!(l.contains (m.hFace h))) = true then 1 else 0 := by
      by_cases e : m.hFace h = f
      · subst e; simp [hf]
      · by_cases e' : m.hFace h ∈ l <;> simp [e, e']
    omega

theorem patchNear_length (r : Int) (l : List Nat) (d : Int) (gs : List Nat) : (patchNear r l d gs).length ≤ gs.length := by
  rw [patchNear, List.length_map]; exact List.length_filter_le _ _

theorem Search.run (w : m.WF) {r : Int} {v : Nat} : ∀ (fuel : Nat) (q S : List (Nat × Int)), Search m r v q S →
    q.length + m.unseenF (S.map Prod.fst) ≤ fuel →
    ∃ T, patchSearch r fuel q (S.map Prod.fst) m = .ok (T.map Prod.fst) m ∧ Search m r v [] T := by
  intro fuel
  induction fuel with
  | zero =>
    intro q S I hl
    have : q = [] := List.length_eq_zero_iff.1 (by omega)
    subst this
    exact ⟨S, rfl, I⟩
  | succ n ih =>
    intro q S I hl
    match q, I, hl with
    | [], I, hl => exact ⟨S, rfl, I⟩
    | (f, d) :: q, I, hl =>
      rw [List.length_cons] at hl
      rw [patchSearch]
      by_cases hf : f ∈ S.map Prod.fst
      · rw [if_pos (List.contains_iff_mem.2 hf)]
        exact ih q S (I.skip hf) (by omega)
      · rw [if_neg (by rw [List.contains_iff_mem]; exact hf)]
        obtain ⟨k, -, c, -⟩ := I.sound (f, d) (by simp)
        have a : m.fAlive f = true := c.alive w
        rw [bind_apply, w.faceFaces_run a]
        dsimp only
        have J := I.visit w hf a
        have e : S.map Prod.fst ++ [f] = (S ++ [(f, d)]).map Prod.fst := by simp
        have hu := m.unseenF_visit hf
        have hn := patchNear_length r (S.map Prod.fst ++ [f]) d ((orbit m.hNext (m.fHe f)).map fun h => m.hFace (m.hRev h))
        rw [List.length_map, w.loop_length a] at hn
        obtain ⟨T, hT, K⟩ := ih _ _ J (by rw [List.length_append, ← e]; omega)
        exact ⟨T, by rw [← hT, e], K⟩

theorem Search.done {r : Int} {v : Nat} {S : List (Nat × Int)} (I : Search m r v [] S) (f : Nat) : f ∈ S.map Prod.fst ↔ m.InPatch r v f := by
  have e : S ++ [] = S := List.append_nil _
  constructor
  · intro hf
    obtain ⟨x, hx, rfl⟩ := List.mem_map.1 hf
    obtain ⟨k, -, c, l⟩ := I.sound x (by rw [e]; exact hx)
    exact ⟨k, c, l⟩
  · rintro ⟨k, c, l⟩
    suffices h : ∀ k f, m.FaceChain v k f → (k = 1 ∨ (k : Int) ≤ r) → ∃ x ∈ S, x.1 = f ∧ x.2 ≤ (k : Int) by
      obtain ⟨x, hx, rfl, -⟩ := h k f c l
      exact List.mem_map_of_mem hx
    intro k f c
    induction c with
    | first a s =>
      intro _
      obtain ⟨x, hx, h1, h2⟩ := I.start _ a s
      exact ⟨x, e ▸ hx, h1, h2⟩
    | @more k h c a ih =>
      intro l
      have hk := c.pos
      have l' : ((k + 1 : Nat) : Int) ≤ r := by
        rcases l with l | l
        · omega
        · exact l
      obtain ⟨x, hx, h1, h2⟩ := ih (.inr (by push_cast at l'; omega))
      obtain ⟨y, hy, h3, h4⟩ := I.near x hx h a h1.symm (by push_cast at l'; omega)
      exact ⟨y, e ▸ hy, h3, by push_cast; omega⟩

theorem Mesh.WF.patchFaces_ok (w : m.WF) (r : Int) {v : Nat} (a : m.vAlive v = true) :
    ∃ l, patchFaces r v m = .ok l m ∧ l.Nodup ∧ ∀ f, f ∈ l ↔ m.InPatch r v f := by
  have I : Search m r v (((orbit m.sig (m.vHe v)).map m.hFace).map fun g => (g, 1)) [] := by
    refine ⟨?_, ?_, ?_, ?_, ?_, ?_⟩
    · intro x hx
      simp only [List.nil_append, List.mem_map, w.mem_ring a] at hx
      obtain ⟨_, ⟨h, ⟨ah, sh⟩, rfl⟩, rfl⟩ := hx
      exact ⟨1, rfl, .first ah sh, .inl rfl⟩
    · rw [List.nil_append, List.pairwise_map]
      exact List.pairwise_of_forall fun _ _ => le_refl _
    · intro x y q' e hy
      have hx : x ∈ ((orbit m.sig (m.vHe v)).map m.hFace).map fun g => (g, (1 : Int)) := by rw [e]; simp
      obtain ⟨_, -, rfl⟩ := List.mem_map.1 hx
      obtain ⟨_, -, rfl⟩ := List.mem_map.1 hy
      simp
    · intro h ah sh
      exact ⟨(m.hFace h, 1), by simp only [List.nil_append]; exact List.mem_map_of_mem (List.mem_map_of_mem ((w.mem_ring a).2 ⟨ah, sh⟩)), rfl, le_refl _⟩
    · simp
    · simp
  obtain ⟨T, hT, K⟩ := Search.run w (2 * m.hes.length) _ _ I (by
    rw [List.length_map, List.length_map, w.ring_length a, two_mul]
    exact Nat.add_le_add List.countP_le_length List.countP_le_length)
  refine ⟨T.map Prod.fst, ?_, K.nodup, K.done⟩
  rw [patchFaces, bind_apply, w.vertFaces_ok a]
  dsimp only
  rw [bind_apply, read_apply]
  exact hT

end TinyMesh
