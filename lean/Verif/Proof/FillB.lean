import Verif.Proof.FillA
import Verif.Proof.Basic
import Verif.Lib.Orbit
/-
Replacing a face by a triangulation keeps the mesh consistent.
-/
namespace TinyMesh
open Orbit
variable {F : Type}

/-- `e` is the side of the polygon with `n` corners that starts at the corner `e.1` -/
def IsSide (n : Nat) (e : Nat × Nat) : Prop := e.1 < n ∧ e.2 = (e.1 + 1) % n

/-- the triangles `tris` fill the polygon with `n` corners -/
structure Poly (n : Nat) (tris : List Tri3) : Prop where
  three : 3 ≤ n
  len : tris.length + 2 = n
  bound : ∀ e ∈ allDirs tris, e.1 < n ∧ e.2 < n
  nodup : (allDirs tris).Nodup
  side : ∀ e, IsSide n e → e ∈ allDirs tris
  swap : ∀ e ∈ allDirs tris, ¬ IsSide n e → (e.2, e.1) ∈ allDirs tris ∧ ¬ IsSide n (e.2, e.1)
  not_swap : ∀ e, IsSide n e → (e.2, e.1) ∉ allDirs tris
  fan : ∀ e ∈ allDirs tris, Relation.ReflTransGen (Turn tris) e (e.1, (e.1 + 1) % n)
  ne : ∀ e ∈ allDirs tris, e.1 ≠ e.2

theorem Triangulation.poly {n : Nat} {l tris : List Tri3} (h3 : 3 ≤ n) (h : Triangulation 0 (n - 1) l) (p : tris.Perm l) : Poly n tris := by
  have pm : (allDirs tris).Perm (allDirs l) := p.flatMap_right _
  have hl := h.length_eq
  have sideEq : ∀ e : Nat × Nat, IsSide n e ↔ (e.2 = e.1 + 1 ∧ e.2 < n) ∨ e = (n - 1, 0) := by
    intro ⟨a, b⟩
    simp only [IsSide, Prod.mk.injEq]
    constructor
    · rintro ⟨h1, h2⟩
      by_cases e : a + 1 < n
      · rw [Nat.mod_eq_of_lt e] at h2; left; omega
      · have : a + 1 = n := by omega
        rw [this, Nat.mod_self] at h2
        right; omega
    · rintro (⟨h1, h2⟩ | ⟨h1, h2⟩)
      · refine ⟨by omega, ?_⟩
        rw [Nat.mod_eq_of_lt (by omega)]; exact h1
      · refine ⟨by omega, ?_⟩
        have : a + 1 = n := by omega
        rw [this, Nat.mod_self]; exact h2
  have rg : ∀ e ∈ allDirs l, e.1 < n ∧ e.2 < n := by
    intro e he
    have := h.dir_range e he
    omega
  refine ⟨h3, by rw [p.length_eq]; omega, fun e he => rg e (pm.mem_iff.1 he), pm.nodup_iff.2 h.dirs_nodup, ?_, ?_, ?_, ?_, ?_⟩
  · intro e he
    rw [pm.mem_iff]
    rcases (sideEq e).1 he with ⟨h1, h2⟩ | rfl
    · have := h.side_mem (by omega) e.1 (by omega) (by omega)
      rwa [← h1] at this
    · exact h.top_dir (by omega)
  · intro e he hs
    rw [pm.mem_iff] at he ⊢
    rw [sideEq] at hs ⊢
    have b := rg e he
    have r := h.dir_range e he
    rcases h.swap_mem e he with h1 | h1 | h1
    · exact absurd (.inl ⟨h1, b.2⟩) hs
    · exact absurd (.inr h1) hs
    · refine ⟨h1, ?_⟩
      rintro (⟨h2, _⟩ | h2)
      · have := h.dir_range _ h1
        dsimp only at h2 this
        omega
      · have := h.dir_range _ h1
        simp only [Prod.mk.injEq] at h2 this
        omega
  · intro e he hm
    rw [pm.mem_iff] at hm
    have r := h.dir_range _ hm
    rcases (sideEq e).1 he with ⟨h1, h2⟩ | rfl
    · dsimp only at r; omega
    · dsimp only at r; omega
  · intro e he
    rw [pm.mem_iff] at he
    have b := rg e he
    have r := h.dir_range e he
    have mn : ∀ t ∈ l, t ∈ tris := fun t ht => p.mem_iff.2 ht
    rcases r with r | r
    · have := Turn.mono mn (h.turn_forward e he r.2.1)
      rwa [Nat.mod_eq_of_lt (by omega)]
    · rcases h.turn_backward e he (by omega) with h1 | ⟨h1, h2⟩
      · by_cases hn : e.1 + 1 < n
        · rw [Nat.mod_eq_of_lt hn]; exact Turn.mono mn h1
        · exfalso
          -- no directed edge ends at the corner `n`
          have hx : e.1 = n - 1 := by omega
          rw [Relation.ReflTransGen.cases_tail_iff] at h1
          rcases h1 with h1 | ⟨c, _, t, ht, hc⟩
          · have := congrArg Prod.snd h1; dsimp only at this; omega
          · have := h.range t ht
            rcases hc with ⟨_, hc⟩ | ⟨_, hc⟩ | ⟨_, hc⟩ <;>
              (have := congrArg Prod.snd hc; dsimp only at this; omega)
      · rw [h1]
        have : n - 1 + 1 = n := by omega
        rw [this, Nat.mod_self]
        exact Turn.mono mn h2
  · intro e he
    rw [pm.mem_iff] at he
    have r := h.dir_range e he
    omega

/-- `hs` lists the half-edges of the face `f` in order. -/
structure FaceLoop (m : Mesh F) (f : Nat) (hs : List Nat) : Prop where
  mem : ∀ h, h ∈ hs ↔ m.hAlive h = true ∧ m.hFace h = f
  nodup : hs.Nodup
  next : ∀ p h, hs[p]? = some h → hs[(p + 1) % hs.length]? = some (m.hNext h)

/-- `m'` is `m` with the face `f` replaced by triangles; `He` gives the half-edges along the directed edges of the triangles. -/
structure Patched (m m' : Mesh F) (f : Nat) (hs : List Nat) (tris : List Tri3) (He : Nat × Nat → Nat) : Prop where
  hD : Dense m'.hAlive m'.hIdx m'.hes
  fD : Dense m'.fAlive m'.fIdx m'.fs
  hal : ∀ h, m'.hAlive h = true ↔ m.hAlive h = true ∨ ∃ e ∈ allDirs tris, ¬ IsSide hs.length e ∧ He e = h
  hNew : ∀ e ∈ allDirs tris, ¬ IsSide hs.length e → m.hFresh ≤ He e ∧ He e < m'.hFresh
  hFr : m.hFresh ≤ m'.hFresh
  hSide : ∀ p, p < hs.length → hs[p]? = some (He (p, (p + 1) % hs.length))
  inj : ∀ e ∈ allDirs tris, ∀ e' ∈ allDirs tris, He e = He e' → e = e'
  tri : ∀ j t, tris[j]? = some t →
    m'.hNext (He (t.1, t.2.1)) = He (t.2.1, t.2.2) ∧ m'.hNext (He (t.2.1, t.2.2)) = He (t.2.2, t.1) ∧
    m'.hNext (He (t.2.2, t.1)) = He (t.1, t.2.1) ∧
    (∀ e ∈ dirs t, m'.hFace (He e) = m.fFresh + j) ∧ m'.fHe (m.fFresh + j) = He (t.1, t.2.1)
  src : ∀ e ∈ allDirs tris, ∀ h, hs[e.1]? = some h → m'.hSrc (He e) = m.hSrc h
  bd : ∀ e ∈ allDirs tris, m'.hBd (He e) = false
  rev : ∀ e ∈ allDirs tris, ¬ IsSide hs.length e → m'.hRev (He e) = He (e.2, e.1)
  out : ∀ h, m.hAlive h = true → m.hFace h ≠ f →
    m'.hNext h = m.hNext h ∧ m'.hFace h = m.hFace h ∧ m'.hBd h = m.hBd h ∧ m'.hSrc h = m.hSrc h
  oldRev : ∀ h, m.hAlive h = true → m'.hRev h = m.hRev h
  fal : ∀ g, m'.fAlive g = true ↔ (m.fAlive g = true ∧ g ≠ f) ∨ ∃ j, j < tris.length ∧ g = m.fFresh + j
  fFr : m'.fFresh = m.fFresh + tris.length
  fHe : ∀ g, m.fAlive g = true → m'.fHe g = m.fHe g
  vAlive : m'.vAlive = m.vAlive
  vPos : m'.vPos = m.vPos
  vHe : m'.vHe = m.vHe
  vIdx : m'.vIdx = m.vIdx
  vLock : m'.vLock = m.vLock
  vs : m'.vs = m.vs
  vFr : m'.vFresh = m.vFresh
  slots : ∀ (i g : Nat), m.fs[i]? = some g → g ≠ f → m'.fs[i]? = some g
  hLen : m'.hes.length + 6 = m.hes.length + 2 * hs.length
  fLen : m'.fs.length + 3 = m.fs.length + hs.length

section
variable {m m' : Mesh F} {f : Nat} {hs : List Nat} {tris : List Tri3} {He : Nat × Nat → Nat}

theorem Foll.mem {l : List Tri3} {e e' : Nat × Nat} (h : Foll l e e') : e ∈ allDirs l ∧ e' ∈ allDirs l ∧ e'.1 = e.2 := by
  obtain ⟨t, ht, h⟩ := h
  refine ⟨mem_allDirs.2 ⟨t, ht, ?_⟩, mem_allDirs.2 ⟨t, ht, ?_⟩, ?_⟩ <;>
    rcases h with ⟨rfl, rfl⟩ | ⟨rfl, rfl⟩ | ⟨rfl, rfl⟩ <;> simp [dirs]

theorem exists_foll {l : List Tri3} {e : Nat × Nat} (h : e ∈ allDirs l) : ∃ e', Foll l e e' := by
  obtain ⟨t, ht, h⟩ := mem_allDirs.1 h
  rw [mem_dirs] at h
  rcases h with rfl | rfl | rfl
  · exact ⟨_, t, ht, .inl ⟨rfl, rfl⟩⟩
  · exact ⟨_, t, ht, .inr (.inl ⟨rfl, rfl⟩)⟩
  · exact ⟨_, t, ht, .inr (.inr ⟨rfl, rfl⟩)⟩

theorem Patched.next (P : Patched m m' f hs tris He) {e e' : Nat × Nat} (h : Foll tris e e') : m'.hNext (He e) = He e' := by
  obtain ⟨t, ht, h⟩ := h
  obtain ⟨j, hj⟩ := List.getElem?_of_mem ht
  obtain ⟨a, b, c, _⟩ := P.tri j t hj
  rcases h with ⟨rfl, rfl⟩ | ⟨rfl, rfl⟩ | ⟨rfl, rfl⟩
  · exact a
  · exact b
  · exact c

/-- half-edges of the new mesh: edges of the new triangles, or half-edges of other faces -/
theorem Patched.cases (P : Patched m m' f hs tris He) (p : Poly hs.length tris) (l : FaceLoop m f hs) {h : Nat}
    (a : m'.hAlive h = true) : (∃ e ∈ allDirs tris, He e = h) ∨ (m.hAlive h = true ∧ m.hFace h ≠ f) := by
  rcases (P.hal h).1 a with a | ⟨e, he, _, rfl⟩
  · by_cases hf : m.hFace h = f
    · left
      obtain ⟨i, hi⟩ := List.getElem?_of_mem ((l.mem h).2 ⟨a, hf⟩)
      have hlt : i < hs.length := (List.getElem?_eq_some_iff.1 hi).1
      have := P.hSide i hlt
      rw [hi] at this
      exact ⟨_, p.side _ ⟨hlt, rfl⟩, (Option.some.inj this).symm⟩
    · exact .inr ⟨a, hf⟩
  · exact .inl ⟨e, he, rfl⟩

theorem Patched.alive_side (P : Patched m m' f hs tris He) (l : FaceLoop m f hs) {e : Nat × Nat} (h : IsSide hs.length e) :
    hs[e.1]? = some (He e) ∧ m.hAlive (He e) = true ∧ m.hFace (He e) = f := by
  have := P.hSide e.1 h.1
  rw [← h.2] at this
  exact ⟨this, (l.mem _).1 (List.mem_of_getElem? this)⟩

theorem Patched.alive_e (P : Patched m m' f hs tris He) (l : FaceLoop m f hs) {e : Nat × Nat} (h : e ∈ allDirs tris) :
    m'.hAlive (He e) = true := by
  rw [P.hal]
  by_cases s : IsSide hs.length e
  · exact .inl (P.alive_side l s).2.1
  · exact .inr ⟨e, h, s, rfl⟩

/-- the start vertex of a directed edge is the corner it starts from -/
theorem Patched.src_e (P : Patched m m' f hs tris He) (p : Poly hs.length tris) (l : FaceLoop m f hs) {e : Nat × Nat}
    (h : e ∈ allDirs tris) : ∃ x, hs[e.1]? = some x ∧ m.hAlive x = true ∧ m'.hSrc (He e) = m.hSrc x := by
  have hb := (p.bound e h).1
  refine ⟨hs[e.1], List.getElem?_eq_getElem hb, ((l.mem _).1 (List.getElem_mem hb)).1, ?_⟩
  exact P.src e h _ (List.getElem?_eq_getElem hb)

/-- start vertices of old half-edges are unchanged -/
theorem Patched.src_old (P : Patched m m' f hs tris He) (p : Poly hs.length tris) (l : FaceLoop m f hs) {h : Nat}
    (a : m.hAlive h = true) : m'.hSrc h = m.hSrc h := by
  by_cases hf : m.hFace h = f
  · obtain ⟨i, hi⟩ := List.getElem?_of_mem ((l.mem h).2 ⟨a, hf⟩)
    have hlt : i < hs.length := (List.getElem?_eq_some_iff.1 hi).1
    have := P.hSide i hlt
    rw [hi] at this
    have e := (Option.some.inj this)
    have := P.src (i, (i + 1) % hs.length) (p.side _ ⟨hlt, rfl⟩) h hi
    rwa [← e] at this
  · exact (P.out h a hf).2.2.2

/-- faces of directed edges are new -/
theorem Patched.face_e (P : Patched m m' f hs tris He) {e : Nat × Nat} (h : e ∈ allDirs tris) :
    ∃ j t, tris[j]? = some t ∧ e ∈ dirs t ∧ m'.hFace (He e) = m.fFresh + j := by
  obtain ⟨t, ht, h⟩ := mem_allDirs.1 h
  obtain ⟨j, hj⟩ := List.getElem?_of_mem ht
  exact ⟨j, t, hj, h, (P.tri j t hj).2.2.2.1 e h⟩

theorem Patched.onTri (P : Patched m m' f hs tris He) {e : Nat × Nat} (h : e ∈ allDirs tris) : m'.OnTri (He e) := by
  obtain ⟨j, t, ht, h, _⟩ := P.face_e h
  obtain ⟨a, b, c, _⟩ := P.tri j t ht
  unfold Mesh.OnTri
  rw [mem_dirs] at h
  rcases h with rfl | rfl | rfl
  · rw [a, b, c]
  · rw [b, c, a]
  · rw [c, a, b]

/-- the new mesh is consistent -/
theorem Patched.wf (w : m.WF) (P : Patched m m' f hs tris He) (p : Poly hs.length tris) (l : FaceLoop m f hs) : m'.WF := by
  have faceLt : ∀ h, m.hAlive h = true → m.hFace h < m.fFresh := fun h a => (w.fBound _ (w.face_alive h a)).2
  have next_out : ∀ h, m.hAlive h = true → m.hFace h ≠ f →
      m.hAlive (m.hNext h) = true ∧ m.hFace (m.hNext h) ≠ f := fun h a hf =>
    ⟨w.next_alive h a, by rw [w.face_next h a]; exact hf⟩
  have aold : ∀ h, m.hAlive h = true → m'.hAlive h = true := fun h a => (P.hal h).2 (.inl a)
  have hnx : ∀ h, m'.hAlive h = true → m'.hAlive (m'.hNext h) = true := by
    intro h a
    rcases P.cases p l a with ⟨e, he, rfl⟩ | ⟨a0, hf⟩
    · obtain ⟨e', hf⟩ := exists_foll he
      rw [P.next hf]
      exact P.alive_e l hf.mem.2.1
    · rw [(P.out h a0 hf).1]
      exact aold _ (w.next_alive h a0)
  have hfn : ∀ h, m'.hAlive h = true → m'.hFace (m'.hNext h) = m'.hFace h := by
    intro h a
    rcases P.cases p l a with ⟨e, he, rfl⟩ | ⟨a0, hf⟩
    · obtain ⟨j, t, ht, hd, hj⟩ := P.face_e he
      obtain ⟨x, y, z, fc, _⟩ := P.tri j t ht
      rw [hj]
      rw [mem_dirs] at hd
      rcases hd with rfl | rfl | rfl
      · rw [x]; exact fc _ (by simp [dirs])
      · rw [y]; exact fc _ (by simp [dirs])
      · rw [z]; exact fc _ (by simp [dirs])
    · obtain ⟨an, fn⟩ := next_out h a0 hf
      rw [(P.out h a0 hf).1, (P.out _ an fn).2.1, (P.out h a0 hf).2.1, w.face_next h a0]
  -- two half-edges on the same new face belong to the same triangle
  have same : ∀ e e', e ∈ allDirs tris → e' ∈ allDirs tris → m'.hFace (He e) = m'.hFace (He e') →
      ∃ (j : Nat) (t : Tri3), tris[j]? = some t ∧ e ∈ dirs t ∧ e' ∈ dirs t := by
    intro e e' he he' hh
    obtain ⟨j, t, ht, hd, hj⟩ := P.face_e he
    obtain ⟨j', t', ht', hd', hj'⟩ := P.face_e he'
    have : j = j' := by omega
    subst this
    rw [ht] at ht'
    cases Option.some.inj ht'
    exact ⟨j, t, ht, hd, hd'⟩
  have mixed : ∀ e h, e ∈ allDirs tris → m.hAlive h = true → m.hFace h ≠ f → m'.hFace (He e) ≠ m'.hFace h := by
    intro e h he a hf
    obtain ⟨j, t, ht, hd, hj⟩ := P.face_e he
    rw [hj, (P.out h a hf).2.1]
    have := faceLt h a
    omega
  have revOld : ∀ e, IsSide hs.length e → m'.hRev (He e) = m.hRev (He e) := fun e s => P.oldRev _ (P.alive_side l s).2.1
  have hra : ∀ h, m'.hAlive h = true → m'.hAlive (m'.hRev h) = true := by
    intro h a
    rcases (P.hal h).1 a with a | ⟨e, he, hs', rfl⟩
    · rw [P.oldRev h a]; exact aold _ (w.rev_alive h a)
    · rw [P.rev e he hs']; exact P.alive_e l (p.swap e he hs').1
  have revInj : ∀ h h', m'.hAlive h = true → m'.hAlive h' = true → m'.hRev h = m'.hRev h' → h = h' := by
    have rr : ∀ h, m'.hAlive h = true → m'.hRev (m'.hRev h) = h := by
      intro h a
      rcases (P.hal h).1 a with a | ⟨e, he, hs', rfl⟩
      · rw [P.oldRev h a, P.oldRev _ (w.rev_alive h a), w.rev_rev h a]
      · have := p.swap e he hs'
        rw [P.rev e he hs', P.rev _ this.1 this.2]
    intro h h' a a' hh
    rw [← rr h a, ← rr h' a', hh]
  have hBound : ∀ h, m'.hAlive h = true → 0 < h ∧ h < m'.hFresh := by
    intro h a
    rcases (P.hal h).1 a with a | ⟨e, he, hs', rfl⟩
    · have := w.hBound h a
      exact ⟨this.1, lt_of_lt_of_le this.2 P.hFr⟩
    · have := P.hNew e he hs'
      have x : 0 < m.hFresh := by
        have := (P.alive_side l (e := (0, (0 + 1) % hs.length)) ⟨by have := p.three; dsimp only; omega, rfl⟩).2.1
        have := w.hBound _ this
        omega
      exact ⟨by omega, this.2⟩
  have nextInj : ∀ h h', m'.hAlive h = true → m'.hAlive h' = true → m'.hNext h = m'.hNext h' → h = h' := by
    intro h h' a a' hh
    have ff : m'.hFace h = m'.hFace h' := by rw [← hfn h a, ← hfn h' a', hh]
    rcases P.cases p l a with ⟨e, he, rfl⟩ | ⟨a0, hf⟩ <;> rcases P.cases p l a' with ⟨e', he', rfl⟩ | ⟨a0', hf'⟩
    · obtain ⟨j, t, ht, hd, hd'⟩ := same e e' he he' ff
      have h1 := P.onTri he
      have h2 := P.onTri he'
      unfold Mesh.OnTri at h1 h2
      rw [← h1, ← h2, hh]
    · exact absurd ff (mixed e h' he a0' hf')
    · exact absurd ff.symm (mixed e' h he' a0 hf)
    · rw [(P.out h a0 hf).1, (P.out h' a0' hf').1] at hh
      exact w.next_inj h h' a0 a0' hh
  have perm : Perm (fun x => m'.hNext (m'.hRev x)) (fun h => m'.hAlive h = true) m'.hFresh :=
    ⟨fun x a => hnx _ (hra x a), fun x y a b e => revInj x y a b (nextInj _ _ (hra x a) (hra y b) e), fun x a => (hBound x a).2⟩
  have fan : ∀ e ∈ allDirs tris, Conn (fun x => m'.hNext (m'.hRev x)) (fun h => m'.hAlive h = true) (He e)
      (He (e.1, (e.1 + 1) % hs.length)) := by
    intro e he
    have key : ∀ e e', Relation.ReflTransGen (Turn tris) e e' → e ∈ allDirs tris →
        Conn (fun x => m'.hNext (m'.hRev x)) (fun h => m'.hAlive h = true) (He e) (He e') := by
      intro e e' h
      induction h using Relation.ReflTransGen.head_induction_on with
      | refl => exact fun _ => Conn.refl _
      | @head x y t _ ih =>
        intro hx
        have mem := t.mem
        have ns : ¬ IsSide hs.length x := fun s => p.not_swap x s mem.1
        refine (Conn.step' (P.alive_e l hx) ?_).trans (ih mem.2.1)
        rw [P.rev x hx ns]
        exact P.next t
    exact key _ _ (p.fan e he) he
  have old : ∀ h, m.hAlive h = true → Conn (fun x => m'.hNext (m'.hRev x)) (fun h => m'.hAlive h = true) h
      (m.hNext (m.hRev h)) := by
    intro h a
    have ar := w.rev_alive h a
    by_cases hf : m.hFace (m.hRev h) = f
    · obtain ⟨i, hi⟩ := List.getElem?_of_mem ((l.mem _).2 ⟨ar, hf⟩)
      have hlt : i < hs.length := (List.getElem?_eq_some_iff.1 hi).1
      have e1 := P.hSide i hlt
      have e2 := l.next i _ hi
      have e3 := P.hSide ((i + 1) % hs.length) (Nat.mod_lt _ (by omega))
      rw [hi] at e1
      rw [e3] at e2
      rw [← Option.some.inj e2]
      have sd : IsSide hs.length (i, (i + 1) % hs.length) := ⟨hlt, rfl⟩
      obtain ⟨e', fo⟩ := exists_foll (p.side _ sd)
      have := fan e' fo.mem.2.1
      rw [fo.mem.2.2] at this
      refine (Conn.step' (aold h a) ?_).trans this
      rw [P.oldRev h a, Option.some.inj e1]
      exact P.next fo
    · refine Conn.step' (aold h a) ?_
      rw [P.oldRev h a, (P.out _ ar hf).1]
  have oldN : ∀ h, m.hAlive h = true → ∀ k, Conn (fun x => m'.hNext (m'.hRev x)) (fun h => m'.hAlive h = true) h
      ((fun x => m.hNext (m.hRev x))^[k] h) ∧ m.hAlive ((fun x => m.hNext (m.hRev x))^[k] h) = true := by
    intro h a k
    induction k with
    | zero => exact ⟨Conn.refl _, a⟩
    | succ k ih =>
      rw [Function.iterate_succ_apply']
      exact ⟨ih.1.trans (old _ ih.2), w.next_alive _ (w.rev_alive _ ih.2)⟩
  have toOld : ∀ h, m'.hAlive h = true → ∃ x, m.hAlive x = true ∧ m.hSrc x = m'.hSrc h ∧
      Conn (fun x => m'.hNext (m'.hRev x)) (fun h => m'.hAlive h = true) h x := by
    intro h a
    rcases P.cases p l a with ⟨e, he, rfl⟩ | ⟨a0, hf⟩
    · obtain ⟨x, hx, ax, ex⟩ := P.src_e p l he
      refine ⟨x, ax, ex.symm, ?_⟩
      have := fan e he
      rw [P.hSide e.1 (p.bound e he).1] at hx
      rwa [Option.some.inj hx] at this
    · exact ⟨h, a0, (P.out h a0 hf).2.2.2.symm, Conn.refl _⟩
  refine ⟨P.hD, ?_, P.fD, ?_, ?_, ?_, hnx, hra, ?_, ?_, ?_, ?_, ?_, ?_, hfn, ?_, ?_, ?_, ?_⟩
  · rw [P.vAlive, P.vIdx, P.vs]; exact w.vDense
  · exact hBound
  · rw [P.vAlive, P.vFr]; exact w.vBound
  · intro g a
    rcases (P.fal g).1 a with ⟨a, _⟩ | ⟨j, hj, rfl⟩
    · have := w.fBound g a
      rw [P.fFr]; omega
    · have x := faceLt _ (P.alive_side l (e := (0, (0 + 1) % hs.length)) ⟨by have := p.three; dsimp only; omega, rfl⟩).2.1
      rw [P.fFr]; omega
  · intro h a
    rw [P.vAlive]
    rcases P.cases p l a with ⟨e, he, rfl⟩ | ⟨a0, hf⟩
    · obtain ⟨x, _, ax, hx⟩ := P.src_e p l he
      rw [hx]; exact w.src_alive x ax
    · rw [(P.out h a0 hf).2.2.2]; exact w.src_alive h a0
  · intro h a
    rw [P.fal]
    rcases P.cases p l a with ⟨e, he, rfl⟩ | ⟨a0, hf⟩
    · obtain ⟨j, t, ht, hd, hj⟩ := P.face_e he
      exact .inr ⟨j, (List.getElem?_eq_some_iff.1 ht).1, hj⟩
    · rw [(P.out h a0 hf).2.1]; exact .inl ⟨w.face_alive h a0, hf⟩
  · intro h a
    rcases (P.hal h).1 a with a | ⟨e, he, hs', rfl⟩
    · rw [P.oldRev h a, P.oldRev _ (w.rev_alive h a), w.rev_rev h a]
    · have := p.swap e he hs'
      rw [P.rev e he hs', P.rev _ this.1 this.2]
  · intro h a
    rcases (P.hal h).1 a with a | ⟨e, he, hs', rfl⟩
    · rw [P.oldRev h a]; exact w.rev_ne h a
    · have := p.swap e he hs'
      rw [P.rev e he hs']
      intro hh
      have := P.inj _ this.1 _ he hh
      exact p.ne e he (congrArg Prod.fst this).symm
  · intro h a
    rcases P.cases p l a with ⟨e, he, rfl⟩ | ⟨a0, hf⟩
    · obtain ⟨e', fo⟩ := exists_foll he
      rw [P.next fo]
      obtain ⟨x, hx, ax, ex⟩ := P.src_e p l fo.mem.2.1
      rw [ex]
      rw [fo.mem.2.2] at hx
      by_cases s : IsSide hs.length e
      · obtain ⟨e1, a1, f1⟩ := P.alive_side l s
        rw [revOld e s, P.src_old p l (w.rev_alive _ a1), w.src_rev _ a1]
        have := l.next _ _ e1
        rw [← s.2, hx] at this
        rw [Option.some.inj this]
      · have sw := p.swap e he s
        rw [P.rev e he s]
        exact P.src _ sw.1 x hx
    · rw [(P.out h a0 hf).1, P.oldRev h a0, P.src_old p l (w.rev_alive h a0), P.src_old p l (w.next_alive h a0), w.src_rev h a0]
  · exact nextInj
  · intro g a
    rcases (P.fal g).1 a with ⟨a, hg⟩ | ⟨j, hj, rfl⟩
    · obtain ⟨x, y⟩ := w.fHe_ok g a
      rw [P.fHe g a]
      exact ⟨aold _ x, by rw [(P.out _ x (by rw [y]; exact hg)).2.1, y]⟩
    · have ht := List.getElem?_eq_getElem hj
      obtain ⟨_, _, _, fc, fh⟩ := P.tri j _ ht
      rw [fh]
      exact ⟨P.alive_e l (mem_allDirs.2 ⟨_, List.getElem_mem hj, by simp [dirs]⟩), fc _ (by simp [dirs])⟩
  · rw [P.vAlive, P.vHe]
    intro v a
    obtain ⟨x, y⟩ := w.vHe_ok v a
    exact ⟨aold _ x, by rw [P.src_old p l x, y]⟩
  · intro h h' a a' ff
    rcases P.cases p l a with ⟨e, he, rfl⟩ | ⟨a0, hf⟩ <;> rcases P.cases p l a' with ⟨e', he', rfl⟩ | ⟨a0', hf'⟩
    · obtain ⟨j, t, ht, hd, hd'⟩ := same e e' he he' ff
      obtain ⟨x, y, z, _⟩ := P.tri j t ht
      rw [mem_dirs] at hd hd'
      rcases hd with rfl | rfl | rfl <;> rcases hd' with rfl | rfl | rfl
      · exact ⟨0, rfl⟩
      · exact ⟨1, x⟩
      · exact ⟨2, by simp only [Function.iterate_succ, Function.iterate_zero, Function.comp, id, x, y]⟩
      · exact ⟨2, by simp only [Function.iterate_succ, Function.iterate_zero, Function.comp, id, y, z]⟩
      · exact ⟨0, rfl⟩
      · exact ⟨1, y⟩
      · exact ⟨1, z⟩
      · exact ⟨2, by simp only [Function.iterate_succ, Function.iterate_zero, Function.comp, id, z, x]⟩
      · exact ⟨0, rfl⟩
    · exact absurd ff (mixed e h' he a0' hf')
    · exact absurd ff.symm (mixed e' h he' a0 hf)
    · rw [(P.out h a0 hf).2.1, (P.out h' a0' hf').2.1] at ff
      obtain ⟨k, hk⟩ := w.face_conn h h' a0 a0' ff
      refine ⟨k, ?_⟩
      rw [← hk]
      have : ∀ k, m'.hNext^[k] h = m.hNext^[k] h ∧ m.hAlive (m.hNext^[k] h) = true ∧ m.hFace (m.hNext^[k] h) ≠ f := by
        intro k
        induction k with
        | zero => exact ⟨rfl, a0, hf⟩
        | succ k ih =>
          rw [Function.iterate_succ_apply', Function.iterate_succ_apply', ih.1]
          exact ⟨(P.out _ ih.2.1 ih.2.2).1, next_out _ ih.2.1 ih.2.2⟩
      exact (this k).1
  · intro h h' a a' hh
    obtain ⟨x, ax, sx, cx⟩ := toOld h a
    obtain ⟨y, ay, sy, cy⟩ := toOld h' a'
    obtain ⟨k, hk⟩ := w.ring_conn x y ax ay (by rw [sx, sy, hh])
    have c := (oldN x ax k).1
    rw [hk] at c
    exact ((cx.trans c).trans cy.symm).exists_iter perm a

end
end TinyMesh
