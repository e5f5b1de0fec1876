import Verif.Lemmas.Client
import Verif.Lemmas.Server
import Verif.Lemmas.ZeroRead
import Verif.Spec.Files

/-! Paths, and the file server's handler. -/

namespace HttpIo
open Spec

theorem splitPath_ne (path : Bytes) : splitPath path ≠ [] := by
  cases path with
  | nil => simp [splitPath]
  | cons b bs =>
    unfold splitPath
    split
    · simp
    · split <;> simp

theorem splitPath_single {c : Bytes} (h : (47 : UInt8) ∉ c) : splitPath c = [c] := by
  induction c with
  | nil => rfl
  | cons b bs ih =>
    simp only [List.mem_cons, not_or] at h
    unfold splitPath
    rw [if_neg (fun hb => h.1 hb.symm), ih h.2]

theorem splitPath_append (a b : Bytes) : splitPath (a ++ [47] ++ b) = splitPath a ++ splitPath b := by
  induction a with
  | nil => rfl
  | cons x a ih =>
    rw [List.cons_append, List.cons_append, splitPath, splitPath]
    by_cases hx : x = 47
    · rw [if_pos hx, if_pos hx, ih]; rfl
    · rw [if_neg hx, if_neg hx, ih]
      cases h : splitPath a with
      | nil => exact absurd h (splitPath_ne a)
      | cons c cs => rfl

theorem splitPath_iff {path : Bytes} {cs : List Bytes} : PathText path cs ↔ splitPath path = cs := by
  constructor
  · intro h
    induction h with
    | last h => exact splitPath_single h
    | more h _ ih => rw [splitPath_append, splitPath_single h, ih]; rfl
  · rintro rfl
    induction path with
    | nil => exact .last (by simp)
    | cons b bs ih =>
      unfold splitPath
      split
      · rename_i h; subst h; exact .more (c := []) (by simp) ih
      · rename_i h
        generalize splitPath bs = l at ih
        cases ih with
        | last hc => exact .last (by simp only [List.mem_cons, not_or]; exact ⟨fun e => h e.symm, hc⟩)
        | more hc hp =>
          have := PathText.more (c := b :: _) (by simp only [List.mem_cons, not_or]; exact ⟨fun e => h e.symm, hc⟩) hp
          simpa using this

theorem walkBy_nil (fs : Fs) (k : Nat) (cur : List Bytes) : fs.walkBy k cur [] = .ok cur := by
  cases k <;> rfl

theorem walkBy_cons (fs : Fs) (k : Nat) (cur : List Bytes) (c : Bytes) (cs : List Bytes) : fs.walkBy k cur (c :: cs) =
    match fs cur with
    | none => .error notFound
    | some (.file _) => .error notDir
    | some (.link _) => .error notFound
    | some .dir =>
      if c = [] ∨ c = b!"." then fs.walkBy k cur cs
      else if c = b!".." then fs.walkBy k cur.dropLast cs
      else match fs (cur ++ [c]) with
        | some (.link text) =>
          match k with
          | 0 => .error tooManyLinks
          | k + 1 => fs.walkBy k (if text.head? = some 47 then [] else cur) (splitPath text ++ cs)
        | _ => fs.walkBy k (cur ++ [c]) cs := by
  cases k <;> rfl

/-- The way so far does not matter, but for the links on it. -/
theorem comes_walk {fs : Fs} {n : Nat} {cur cs p rest : List Bytes} (h : Comes fs n cur cs p rest) (k : Nat) :
    fs.walkBy (n + k) cur cs = fs.walkBy k p rest := by
  induction h with
  | here => rw [Nat.zero_add]
  | stay hd hc _ ih => rw [walkBy_cons, hd]; dsimp only; rw [if_pos hc]; exact ih
  | up hd _ ih => rw [walkBy_cons, hd]; dsimp only; rw [if_neg (by decide), if_pos rfl]; exact ih
  | @down n cur cs p rest c hd hc hn _ ih =>
    rw [walkBy_cons, hd]; dsimp only
    rw [if_neg (fun h => h.elim hc.1 hc.2.1), if_neg hc.2.2]
    split
    · exact absurd (by assumption) (hn _)
    · exact ih
  | relative hd hc hl ht hp _ ih =>
    rw [walkBy_cons, hd]; dsimp only
    rw [if_neg (fun h => h.elim hc.1 hc.2.1), if_neg hc.2.2, hl, Nat.add_right_comm]
    dsimp only
    rw [if_neg ht, splitPath_iff.1 hp]
    exact ih
  | absolute hd hc hl ht hp _ ih =>
    rw [walkBy_cons, hd]; dsimp only
    rw [if_neg (fun h => h.elim hc.1 hc.2.1), if_neg hc.2.2, hl, Nat.add_right_comm]
    dsimp only
    rw [if_pos ht, splitPath_iff.1 hp]
    exact ih

/-- With too many links on the way. -/
theorem comes_over {fs : Fs} {n : Nat} {cur cs p rest : List Bytes} (h : Comes fs n cur cs p rest) {k : Nat} (hk : k < n) :
    fs.walkBy k cur cs = .error tooManyLinks := by
  induction h generalizing k with
  | here => omega
  | stay hd hc _ ih => rw [walkBy_cons, hd]; dsimp only; rw [if_pos hc]; exact ih hk
  | up hd _ ih => rw [walkBy_cons, hd]; dsimp only; rw [if_neg (by decide), if_pos rfl]; exact ih hk
  | down hd hc hn _ ih =>
    rw [walkBy_cons, hd]; dsimp only
    rw [if_neg (fun h => h.elim hc.1 hc.2.1), if_neg hc.2.2]
    split
    · exact absurd (by assumption) (hn _)
    · exact ih hk
  | relative hd hc hl ht hp _ ih =>
    rw [walkBy_cons, hd]; dsimp only
    rw [if_neg (fun h => h.elim hc.1 hc.2.1), if_neg hc.2.2, hl]
    cases k with
    | zero => rfl
    | succ k => dsimp only; rw [if_neg ht, splitPath_iff.1 hp]; exact ih (by omega)
  | absolute hd hc hl ht hp _ ih =>
    rw [walkBy_cons, hd]; dsimp only
    rw [if_neg (fun h => h.elim hc.1 hc.2.1), if_neg hc.2.2, hl]
    cases k with
    | zero => rfl
    | succ k => dsimp only; rw [if_pos ht, splitPath_iff.1 hp]; exact ih (by omega)

/-- How following a path ends. -/
inductive WalkEnds (fs : Fs) (k : Nat) (cur cs : List Bytes) : Except Err (List Bytes) → Prop
  | found {n : Nat} {p : List Bytes} : n ≤ k → Comes fs n cur cs p [] → WalkEnds fs k cur cs (.ok p)
  | missing {n : Nat} {p rest : List Bytes} {c : Bytes} : n ≤ k → Comes fs n cur cs p (c :: rest) →
      (∀ content, fs p ≠ some (.file content)) → fs p ≠ some .dir → WalkEnds fs k cur cs (.error notFound)
  | blocked {n : Nat} {p rest : List Bytes} {c content : Bytes} : n ≤ k → Comes fs n cur cs p (c :: rest) →
      fs p = some (.file content) → WalkEnds fs k cur cs (.error notDir)
  | tangled {p rest : List Bytes} : Comes fs (k + 1) cur cs p rest → WalkEnds fs k cur cs (.error tooManyLinks)

theorem WalkEnds.mono {fs : Fs} {k k' j : Nat} {cur cs cur' cs' : List Bytes} {r : Except Err (List Bytes)} (hk : k' = k + j)
    (h : WalkEnds fs k cur cs r) (f : ∀ n p rest, Comes fs n cur cs p rest → Comes fs (n + j) cur' cs' p rest) :
    WalkEnds fs k' cur' cs' r := by
  subst hk
  cases h with
  | found h1 h2 => exact .found (by omega) (f _ _ _ h2)
  | missing h1 h2 h3 h4 => exact .missing (by omega) (f _ _ _ h2) h3 h4
  | blocked h1 h2 h3 => exact .blocked (by omega) (f _ _ _ h2) h3
  | tangled h1 => exact .tangled (by have := f _ _ _ h1; rwa [Nat.add_right_comm] at this)

theorem walk_ends (fs : Fs) (k : Nat) (cur cs : List Bytes) : WalkEnds fs k cur cs (fs.walkBy k cur cs) := by
  induction k generalizing cur cs with
  | zero =>
    induction cs generalizing cur with
    | nil => rw [walkBy_nil]; exact .found (Nat.le_refl _) .here
    | cons c cs ih =>
      rw [walkBy_cons]
      cases hc : fs cur with
      | none => exact .missing (Nat.le_refl _) .here (by simp [hc]) (by simp [hc])
      | some node =>
        cases node with
        | file => exact .blocked (Nat.le_refl _) .here hc
        | link => exact .missing (Nat.le_refl _) .here (by simp [hc]) (by simp [hc])
        | dir =>
          dsimp only
          split
          · exact (ih cur).mono (j := 0) rfl fun _ _ _ h => .stay hc (by assumption) h
          · rename_i h1
            split
            · rename_i h2; subst h2; exact (ih _).mono (j := 0) rfl fun _ _ _ h => .up hc h
            · rename_i h2
              have hn : IsName c := ⟨fun e => h1 (.inl e), fun e => h1 (.inr e), h2⟩
              split
              · rename_i text ht
                by_cases hh : text.head? = some 47
                · exact .tangled (.absolute hc hn ht hh (splitPath_iff.2 rfl) .here)
                · exact .tangled (.relative hc hn ht hh (splitPath_iff.2 rfl) .here)
              · rename_i hx
                exact (ih _).mono (j := 0) rfl fun _ _ _ h => .down hc hn (fun text => hx text) h
  | succ k ihk =>
    induction cs generalizing cur with
    | nil => rw [walkBy_nil]; exact .found (Nat.zero_le _) .here
    | cons c cs ih =>
      rw [walkBy_cons]
      cases hc : fs cur with
      | none => exact .missing (Nat.zero_le _) .here (by simp [hc]) (by simp [hc])
      | some node =>
        cases node with
        | file => exact .blocked (Nat.zero_le _) .here hc
        | link => exact .missing (Nat.zero_le _) .here (by simp [hc]) (by simp [hc])
        | dir =>
          dsimp only
          split
          · exact (ih cur).mono (j := 0) rfl fun _ _ _ h => .stay hc (by assumption) h
          · rename_i h1
            split
            · rename_i h2; subst h2; exact (ih _).mono (j := 0) rfl fun _ _ _ h => .up hc h
            · rename_i h2
              have hn : IsName c := ⟨fun e => h1 (.inl e), fun e => h1 (.inr e), h2⟩
              split
              · rename_i text ht
                by_cases hh : text.head? = some 47
                · rw [if_pos hh]
                  exact (ihk _ _).mono (j := 1) rfl fun _ _ _ h => .absolute hc hn ht hh (splitPath_iff.2 rfl) h
                · rw [if_neg hh]
                  exact (ihk _ _).mono (j := 1) rfl fun _ _ _ h => .relative hc hn ht hh (splitPath_iff.2 rfl) h
              · rename_i hx
                exact (ih _).mono (j := 0) rfl fun _ _ _ h => .down hc hn (fun text => hx text) h

theorem comes_le {fs : Fs} {n : Nat} {cur cs p rest : List Bytes} (h : Comes fs n cur cs p rest) (hn : n ≤ 40) :
    fs.walk cur cs = fs.walkBy (40 - n) p rest := by
  have := comes_walk h (40 - n)
  rwa [show n + (40 - n) = 40 by omega] at this

theorem walk_iff {fs : Fs} {cur cs p : List Bytes} : fs.walk cur cs = .ok p ↔ Leads fs cur cs p := by
  constructor
  · intro h
    have := walk_ends fs 40 cur cs
    rw [show fs.walkBy 40 cur cs = .ok p from h] at this
    generalize hr : Except.ok p = r at this
    cases this with
    | found h1 h2 => simp only [Except.ok.injEq] at hr; subst hr; exact ⟨_, h1, h2⟩
    | _ => simp at hr
  · rintro ⟨n, hn, h⟩
    rw [comes_le h hn, walkBy_nil]

theorem comes_of_walk {fs : Fs} {cur cs p : List Bytes} (h : fs.walkBy 0 cur cs = .ok p) : Comes fs 0 cur cs p [] := by
  have := walk_ends fs 0 cur cs
  rw [h] at this
  generalize hr : Except.ok p = r at this
  cases this with
  | found h1 h2 => simp only [Except.ok.injEq] at hr; subst hr; rw [Nat.le_zero] at h1; subst h1; exact h2
  | _ => simp at hr

theorem comes_append {fs : Fs} {n : Nat} {cur a p rest : List Bytes} (h : Comes fs n cur a p rest) (b : List Bytes) :
    Comes fs n cur (a ++ b) p (rest ++ b) := by
  induction h with
  | here => exact .here
  | stay h1 h2 _ ih => exact .stay h1 h2 ih
  | up h1 _ ih => exact .up h1 ih
  | down h1 h2 h3 _ ih => exact .down h1 h2 h3 ih
  | relative h1 h2 h3 h4 h5 _ ih => exact .relative h1 h2 h3 h4 h5 (by rw [List.append_assoc] at ih; exact ih)
  | absolute h1 h2 h3 h4 h5 _ ih => exact .absolute h1 h2 h3 h4 h5 (by rw [List.append_assoc] at ih; exact ih)

theorem comes_trans {fs : Fs} {n m : Nat} {cur cs p rest q rest' : List Bytes} (h : Comes fs n cur cs p rest)
    (h' : Comes fs m p rest q rest') : Comes fs (n + m) cur cs q rest' := by
  induction h with
  | here => rw [Nat.zero_add]; exact h'
  | stay h1 h2 _ ih => exact .stay h1 h2 (ih h')
  | up h1 _ ih => exact .up h1 (ih h')
  | down h1 h2 h3 _ ih => exact .down h1 h2 h3 (ih h')
  | relative h1 h2 h3 h4 h5 _ ih => rw [Nat.add_right_comm]; exact .relative h1 h2 h3 h4 h5 (ih h')
  | absolute h1 h2 h3 h4 h5 _ ih => rw [Nat.add_right_comm]; exact .absolute h1 h2 h3 h4 h5 (ih h')

theorem comes_split {fs : Fs} {n : Nat} {cur a b q : List Bytes} (h : Comes fs n cur (a ++ b) q []) :
    ∃ p n1 n2, n = n1 + n2 ∧ Comes fs n1 cur a p [] ∧ Comes fs n2 p b q [] := by
  generalize hl : a ++ b = l at h
  generalize hr : ([] : List Bytes) = r at h
  induction h generalizing a with
  | @here p rest =>
    subst hr
    obtain ⟨rfl, rfl⟩ := List.append_eq_nil_iff.1 hl
    exact ⟨_, 0, 0, rfl, .here, .here⟩
  | stay h1 h2 h3 ih =>
    cases a with
    | nil => rw [List.nil_append] at hl; subst hl hr; exact ⟨_, 0, _, (Nat.zero_add _).symm, .here, .stay h1 h2 h3⟩
    | cons d a =>
      rw [List.cons_append, List.cons.injEq] at hl
      obtain ⟨rfl, hl⟩ := hl
      obtain ⟨p, n1, n2, e, k1, k2⟩ := ih hl hr
      exact ⟨p, n1, n2, e, .stay h1 h2 k1, k2⟩
  | up h1 h3 ih =>
    cases a with
    | nil => rw [List.nil_append] at hl; subst hl hr; exact ⟨_, 0, _, (Nat.zero_add _).symm, .here, .up h1 h3⟩
    | cons d a =>
      rw [List.cons_append, List.cons.injEq] at hl
      obtain ⟨rfl, hl⟩ := hl
      obtain ⟨p, n1, n2, e, k1, k2⟩ := ih hl hr
      exact ⟨p, n1, n2, e, .up h1 k1, k2⟩
  | down h1 h2 h4 h3 ih =>
    cases a with
    | nil => rw [List.nil_append] at hl; subst hl hr; exact ⟨_, 0, _, (Nat.zero_add _).symm, .here, .down h1 h2 h4 h3⟩
    | cons d a =>
      rw [List.cons_append, List.cons.injEq] at hl
      obtain ⟨rfl, hl⟩ := hl
      obtain ⟨p, n1, n2, e, k1, k2⟩ := ih hl hr
      exact ⟨p, n1, n2, e, .down h1 h2 h4 k1, k2⟩
  | relative h1 h2 h4 h5 h6 h3 ih =>
    cases a with
    | nil => rw [List.nil_append] at hl; subst hl hr; exact ⟨_, 0, _, (Nat.zero_add _).symm, .here, .relative h1 h2 h4 h5 h6 h3⟩
    | cons d a =>
      rw [List.cons_append, List.cons.injEq] at hl
      obtain ⟨rfl, hl⟩ := hl
      obtain ⟨p, n1, n2, e, k1, k2⟩ := ih (by rw [List.append_assoc, hl]) hr
      exact ⟨p, n1 + 1, n2, by omega, .relative h1 h2 h4 h5 h6 k1, k2⟩
  | absolute h1 h2 h4 h5 h6 h3 ih =>
    cases a with
    | nil => rw [List.nil_append] at hl; subst hl hr; exact ⟨_, 0, _, (Nat.zero_add _).symm, .here, .absolute h1 h2 h4 h5 h6 h3⟩
    | cons d a =>
      rw [List.cons_append, List.cons.injEq] at hl
      obtain ⟨rfl, hl⟩ := hl
      obtain ⟨p, n1, n2, e, k1, k2⟩ := ih (by rw [List.append_assoc, hl]) hr
      exact ⟨p, n1 + 1, n2, by omega, .absolute h1 h2 h4 h5 h6 k1, k2⟩

/-- An empty component stays. -/
theorem comes_empty {fs : Fs} {n : Nat} {cur cs p rest : List Bytes} (h : Comes fs n cur ([] :: cs) p rest)
    (hr : rest ≠ [] :: cs ∨ p ≠ cur) : Comes fs n cur cs p rest := by
  generalize hl : ([] : Bytes) :: cs = l at h
  cases h with
  | here => rcases hr with h | h
            · exact absurd hl.symm h
            · exact absurd rfl h
  | stay _ _ h => simp only [List.cons.injEq] at hl; rw [hl.2]; exact h
  | up => simp at hl
  | down _ hn => simp only [List.cons.injEq] at hl; exact absurd hl.1.symm hn.1
  | relative _ hn => simp only [List.cons.injEq] at hl; exact absurd hl.1.symm hn.1
  | absolute _ hn => simp only [List.cons.injEq] at hl; exact absurd hl.1.symm hn.1

theorem comes_nil {fs : Fs} {n : Nat} {cur p rest : List Bytes} (h : Comes fs n cur [] p rest) : n = 0 ∧ p = cur ∧ rest = [] := by
  cases h; exact ⟨rfl, rfl, rfl⟩

theorem trimSlashes_eq {k : Nat} {path : Bytes} (h : path.head? ≠ some 47) :
    trimSlashes (List.replicate k 47 ++ path) = path := by
  induction k with
  | zero =>
    cases path with
    | nil => rfl
    | cons b bs =>
      have : (b == 47) = false := by simpa using h
      simp [trimSlashes, List.dropWhile_cons, this]
  | succ k ih =>
    rw [List.replicate_succ, List.cons_append]
    unfold trimSlashes at ih ⊢
    rw [List.dropWhile_cons]
    simpa using ih

theorem target_total (target : Bytes) : ∃ cs, TargetText target cs := by
  suffices ∃ k path, target = List.replicate k 47 ++ path ∧ path.head? ≠ some 47 by
    obtain ⟨k, path, h1, h2⟩ := this
    exact ⟨_, k, path, h1, h2, splitPath_iff.2 rfl⟩
  induction target with
  | nil => exact ⟨0, [], rfl, by simp⟩
  | cons b bs ih =>
    by_cases hb : b = 47
    · obtain ⟨k, path, h1, h2⟩ := ih
      exact ⟨k + 1, path, by rw [hb, h1]; rfl, h2⟩
    · exact ⟨0, b :: bs, rfl, by simpa using hb⟩

/-- Where the path made from a target leads. -/
theorem resolve_join {fs : Fs} {root target : Bytes} {R cs : List Bytes} (hR : RootAt fs root R) (ht : TargetText target cs) :
    fs.resolve (joinPath root (trimSlashes target)) =
      if (0 : UInt8) ∈ target then .error (.io .invalidInput) else fs.walk R cs := by
  obtain ⟨h0, hne, hdir, rs, hr1, hr2⟩ := hR
  obtain ⟨k, path, rfl, hp, hpt⟩ := ht
  rw [trimSlashes_eq hp]
  rw [splitPath_iff] at hpt hr1
  have hz : (0 : UInt8) ∈ List.replicate k 47 ++ path ↔ (0 : UInt8) ∈ path := by
    simp [List.mem_append, List.mem_replicate]
  have hgo : ∀ rs : List Bytes, Comes fs 0 [] rs R [] → fs.walk [] (rs ++ cs) = fs.walk R cs := by
    intro rs h
    exact comes_walk (comes_append h cs) 40
  unfold joinPath
  rw [if_neg hp]
  by_cases hl : root.getLast? = some 47
  · rw [if_pos (.inr hl)]
    obtain ⟨root', rfl⟩ : ∃ r', root = r' ++ [47] := by
      rcases List.eq_nil_or_concat root with rfl | ⟨r', b, rfl⟩
      · simp at hl
      · simp at hl; exact ⟨r', by simp [hl]⟩
    unfold Fs.resolve
    have hz' : (0 : UInt8) ∈ root' ++ [47] ++ path ↔ (0 : UInt8) ∈ List.replicate k 47 ++ path := by
      rw [hz]
      simp only [List.mem_append, not_or] at h0 ⊢
      constructor
      · rintro ((h | h) | h)
        · exact absurd h h0.1
        · exact absurd h h0.2
        · exact h
      · exact .inr
    simp only [hz']
    split
    · rfl
    · rw [if_neg (by simp), splitPath_append, hpt]
      have hs : splitPath (root' ++ [47]) = splitPath root' ++ [[]] := by
        have := splitPath_append root' []
        simpa [splitPath] using this
      rw [hs] at hr1
      rw [← hr1] at hr2
      obtain ⟨q, n1, n2, hn, h1, h2⟩ := comes_split hr2
      obtain ⟨_, hq, _⟩ := comes_nil (comes_empty h2 (.inl (by simp)))
      subst hq
      rw [show n1 = 0 by omega] at h1
      exact hgo _ h1
  · rw [if_neg (by simp [hne, hl])]
    unfold Fs.resolve
    have hz' : (0 : UInt8) ∈ root ++ [47] ++ path ↔ (0 : UInt8) ∈ List.replicate k 47 ++ path := by
      rw [hz]
      simp only [List.mem_append]
      constructor
      · rintro ((h | h) | h)
        · exact absurd h h0
        · simp at h
        · exact h
      · exact .inr
    simp only [hz']
    split
    · rfl
    · rw [if_neg (by simp), splitPath_append, hpt, hr1]; exact hgo _ hr2

/-- Two file systems that agree below `R` lead to the same place, below `R`. -/
theorem walk_stays {fs fs' : Fs} {R : List Bytes} (hag : ∀ q, R <+: q → fs q = fs' q) (hnl : NoLinks fs R) {cs : List Bytes}
    (hs : Stays cs) : fs.walk R cs = fs'.walk R cs ∧ ∀ p, fs.walk R cs = .ok p → R <+: p := by
  unfold Fs.walk
  generalize 40 = k
  suffices ∀ cs q : List Bytes, (∀ pre, pre <+: cs → pre.countP (· = b!"..") ≤
      (pre.countP fun c => c ≠ [] ∧ c ≠ b!"." ∧ c ≠ b!"..") + q.length) →
      fs.walkBy k (R ++ q) cs = fs'.walkBy k (R ++ q) cs ∧ ∀ p, fs.walkBy k (R ++ q) cs = .ok p → R <+: p by
    have := this cs [] (by simpa [Stays] using hs)
    simpa using this
  intro cs
  induction cs with
  | nil =>
    intro q _
    rw [walkBy_nil, walkBy_nil]
    exact ⟨rfl, fun p h => by rw [Except.ok.injEq] at h; rw [← h]; exact List.prefix_append _ _⟩
  | cons c cs ih =>
    intro q hq
    rw [walkBy_cons, walkBy_cons]
    rw [← hag (R ++ q) (List.prefix_append _ _)]
    have hlk : R <+: R ++ q ++ [c] := (List.prefix_append R q).trans (List.prefix_append _ _)
    rw [← hag (R ++ q ++ [c]) hlk]
    have hnl := hnl _ hlk
    have hpre : ∀ pre, pre <+: cs → (c :: pre) <+: c :: cs := fun pre h => by
      obtain ⟨t, rfl⟩ := h; exact ⟨t, rfl⟩
    cases fs (R ++ q) with
    | none => simp
    | some n =>
      cases n with
      | file => simp
      | link => simp
      | dir =>
        dsimp only
        by_cases h1 : c = [] ∨ c = b!"."
        · rw [if_pos h1]
          rw [if_pos h1]
          refine ih q fun pre h => ?_
          have := hq _ (hpre pre h)
          rw [List.countP_cons_of_neg (by rcases h1 with rfl | rfl <;> decide),
            List.countP_cons_of_neg (by rcases h1 with rfl | rfl <;> decide)] at this
          exact this
        · rw [if_neg h1, if_neg h1]
          by_cases h2 : c = b!".."
          · rw [if_pos h2, if_pos h2]
            subst h2
            have h3 := hq [b!".."] ⟨cs, rfl⟩
            rw [show List.countP (fun c : Bytes => decide (c = b!"..")) [b!".."] = 1 by decide,
              show List.countP (fun c : Bytes => decide (c ≠ [] ∧ c ≠ b!"." ∧ c ≠ b!"..")) [b!".."] = 0 by decide] at h3
            have hne : q ≠ [] := by rintro rfl; simp at h3
            rw [List.dropLast_append_of_ne_nil hne]
            refine ih q.dropLast fun pre h => ?_
            have := hq _ (hpre pre h)
            rw [List.countP_cons_of_pos (by decide), List.countP_cons_of_neg (by decide)] at this
            rw [List.length_dropLast]
            omega
          · rw [if_neg h2, if_neg h2]
            have hx : ∀ (g : Bytes → Except Err (List Bytes)) (y : Except Err (List Bytes)),
                (match fs (R ++ q ++ [c]) with | some (.link text) => g text | _ => y) = y := by
              intro g y
              split
              · exact absurd (by assumption) (hnl _)
              · rfl
            rw [hx, hx, List.append_assoc]
            refine ih (q ++ [c]) fun pre h => ?_
            have := hq _ (hpre pre h)
            rw [List.countP_cons_of_neg (by simpa using h2),
              List.countP_cons_of_pos (by simp only [decide_eq_true_eq]; exact ⟨fun e => h1 (.inl e), fun e => h1 (.inr e), h2⟩)] at this
            simp only [List.length_append, List.length_cons, List.length_nil]
            omega

theorem walk_down {fs fs' : Fs} {R : List Bytes} (hag : ∀ q, R <+: q → fs q = fs' q) (hl : LinksDown fs R) {cs : List Bytes}
    (hs : b!".." ∉ cs) : fs.walk R cs = fs'.walk R cs ∧ ∀ p, fs.walk R cs = .ok p → R <+: p := by
  unfold Fs.walk
  generalize 40 = k
  suffices ∀ k (cs q : List Bytes), b!".." ∉ cs → R <+: q →
      fs.walkBy k q cs = fs'.walkBy k q cs ∧ ∀ p, fs.walkBy k q cs = .ok p → R <+: p from this k cs R hs (List.prefix_refl _)
  intro k
  induction k with
  | zero =>
    intro cs
    induction cs with
    | nil =>
      intro q _ hq
      rw [walkBy_nil, walkBy_nil]
      exact ⟨rfl, fun p h => by rw [Except.ok.injEq] at h; rw [← h]; exact hq⟩
    | cons c cs ih =>
      intro q hcs hq
      simp only [List.mem_cons, not_or] at hcs
      have hqc : R <+: q ++ [c] := hq.trans (List.prefix_append _ _)
      rw [walkBy_cons, walkBy_cons, ← hag q hq, ← hag _ hqc]
      cases fs q with
      | none => simp
      | some n =>
        cases n with
        | file => simp
        | link => simp
        | dir =>
          dsimp only
          split
          · exact ih q hcs.2 hq
          · rw [if_neg (fun h => hcs.1 h.symm), if_neg (fun h => hcs.1 h.symm)]
            split
            · simp
            · exact ih _ hcs.2 hqc
  | succ k ihk =>
    intro cs
    induction cs with
    | nil =>
      intro q _ hq
      rw [walkBy_nil, walkBy_nil]
      exact ⟨rfl, fun p h => by rw [Except.ok.injEq] at h; rw [← h]; exact hq⟩
    | cons c cs ih =>
      intro q hcs hq
      simp only [List.mem_cons, not_or] at hcs
      have hqc : R <+: q ++ [c] := hq.trans (List.prefix_append _ _)
      rw [walkBy_cons, walkBy_cons, ← hag q hq, ← hag _ hqc]
      cases fs q with
      | none => simp
      | some n =>
        cases n with
        | file => simp
        | link => simp
        | dir =>
          dsimp only
          split
          · exact ih q hcs.2 hq
          · rw [if_neg (fun h => hcs.1 h.symm), if_neg (fun h => hcs.1 h.symm)]
            split
            · rename_i text ht
              obtain ⟨h1, h2⟩ := hl _ _ hqc ht
              rw [if_neg h1]
              refine ihk _ q ?_ hq
              rw [List.mem_append, not_or]
              exact ⟨h2 _ (splitPath_iff.2 rfl), hcs.2⟩
            · exact ih _ hcs.2 hqc

theorem walk_confined {fs fs' : Fs} {R : List Bytes} (hag : ∀ q, R <+: q → fs q = fs' q) {cs : List Bytes}
    (hs : Confined fs R cs) : fs.walk R cs = fs'.walk R cs ∧ ∀ p, fs.walk R cs = .ok p → R <+: p := by
  rcases hs with ⟨h1, h2⟩ | ⟨h1, h2⟩
  · exact walk_stays hag h1 h2
  · exact walk_down hag h1 h2

theorem Spec.Storable.ne {fs : Fs} {p : List Bytes} (h : Storable fs p) : fs p ≠ some .dir ∧ ∀ text, fs p ≠ some (.link text) := by
  rcases h with h | ⟨_, h⟩ <;> rw [h] <;> simp

/-- Writing a file where there is no directory and no link leaves the ways that lead over directories and links. -/
theorem Spec.Comes.set {fs : Fs} {p : List Bytes} (hs : Storable fs p) {content : Bytes} {n : Nat} {cur cs q rest : List Bytes}
    (h : Comes fs n cur cs q rest) : Comes (fs.set p content) n cur cs q rest := by
  obtain ⟨hp, hlk⟩ := hs.ne
  have hl : ∀ q text, fs q = some (.link text) ↔ fs.set p content q = some (.link text) := by
    intro q text
    unfold Fs.set
    split
    · rename_i h; subst h; simp [hlk text]
    · rfl
  have hd : ∀ cur, fs cur = some .dir → fs.set p content cur = some .dir := by
    intro cur hc
    unfold Fs.set
    rw [if_neg (by rintro rfl; exact hp hc)]
    exact hc
  induction h with
  | here => exact .here
  | stay h1 h2 _ ih => exact .stay (hd _ h1) h2 ih
  | up h1 _ ih => exact .up (hd _ h1) ih
  | down h1 h2 h3 _ ih => exact .down (hd _ h1) h2 (fun text ht => h3 text ((hl _ _).2 ht)) ih
  | relative h1 h2 h3 h4 h5 _ ih => exact .relative (hd _ h1) h2 ((hl _ _).1 h3) h4 h5 ih
  | absolute h1 h2 h3 h4 h5 _ ih => exact .absolute (hd _ h1) h2 ((hl _ _).1 h3) h4 h5 ih

theorem Spec.Leads.set {fs : Fs} {p : List Bytes} (hp : Storable fs p) {content : Bytes} {cur cs q : List Bytes}
    (h : Leads fs cur cs q) : Leads (fs.set p content) cur cs q := by
  obtain ⟨n, hn, h⟩ := h
  exact ⟨n, hn, h.set hp⟩

theorem Spec.Confined.set {fs : Fs} {R p cs : List Bytes} (h : Confined fs R cs) (content : Bytes) :
    Confined (fs.set p content) R cs := by
  rcases h with ⟨h1, h2⟩ | ⟨h1, h2⟩
  · refine .inl ⟨fun q hq text => ?_, h2⟩
    unfold Fs.set
    split
    · simp
    · exact h1 q hq text
  · refine .inr ⟨fun q text hq hx => ?_, h2⟩
    unfold Fs.set at hx
    split at hx
    · simp at hx
    · exact h1 q text hq hx

theorem Spec.RootAt.set {fs : Fs} {root : Bytes} {R p : List Bytes} (hR : RootAt fs root R) (hp : Storable fs p)
    (content : Bytes) : RootAt (fs.set p content) root R := by
  obtain ⟨h1, h2, h3, cs, h4, h5⟩ := hR
  refine ⟨h1, h2, ?_, cs, h4, h5.set hp⟩
  unfold Fs.set
  rw [if_neg (by rintro rfl; exact hp.ne.1 h3)]
  exact h3

theorem Fs.set_set (fs : Fs) (p : List Bytes) (a b : Bytes) : (fs.set p a).set p b = fs.set p b := by
  funext q
  unfold Fs.set
  split <;> rfl

section
variable {ρ σ : Type} [LawfulReader ρ] [Writer σ]

/-- `copy` uses its reader only by reading; if it succeeds it has seen the end of the stream. -/
theorem copy_calls (c : Cfg) (r : ρ) (w : σ) (n : Nat) : ∃ sizes, (copy c r w n).2.1 = (calls r sizes).2 ∧ Positive sizes ∧
    ∀ k, (copy c r w n).1 = .ok k → .ok [] ∈ (calls r sizes).1 := by
  have one : ∀ r : ρ, Positive [copySize c r] := by
    intro r x hx; simp only [List.mem_singleton] at hx; subst hx; exact copySize_pos c r
  have more : ∀ (r : ρ) sizes, Positive sizes → Positive (copySize c r :: sizes) := by
    intro r sizes h x hx
    rcases List.mem_cons.1 hx with rfl | hx
    · exact copySize_pos c r
    · exact h x hx
  fun_induction copy c r w n with
  | case1 r w n r' h => exact ⟨[copySize c r], by simp [calls, h], one r, by simp [calls, h]⟩
  | case2 r w n b bs r' h w' hw ih =>
    obtain ⟨sizes, ih, h1, h2⟩ := ih
    exact ⟨copySize c r :: sizes, by simp only [calls, h]; exact ih, more r _ h1, fun k hk => by
      simp only [calls, h]; exact List.mem_cons_of_mem _ (h2 k hk)⟩
  | case3 r w n b bs r' h e w' hw => exact ⟨[copySize c r], by simp [calls, h], one r, by simp⟩
  | case4 r w n e r' h hr ih =>
    obtain ⟨sizes, ih, h1, h2⟩ := ih
    exact ⟨copySize c r :: sizes, by simp only [calls, h]; exact ih, more r _ h1, fun k hk => by
      simp only [calls, h]; exact List.mem_cons_of_mem _ (h2 k hk)⟩
  | case5 r w n e r' h hr => exact ⟨[copySize c r], by simp [calls, h], one r, by simp⟩

end

section
variable {c : Cfg} {σ : Type} [LawfulReader σ] [ZeroReader σ]

theorem fileHandlerOn_onlyReads {δ : Type} [LawfulWriter δ] (disk : δ) (root : Bytes) (errText : Err → Bytes) :
    OnlyReads (fileHandlerOn disk c σ root errText) := by
  refine ⟨fun uri body fs => ?_, fun uri body fs => ⟨[], rfl⟩⟩
  show ∃ sizes, (FileHandler.putOn disk root uri body fs).2.1 = _
  unfold FileHandler.putOn
  split
  · exact ⟨[], rfl⟩
  · obtain ⟨sizes, h, _⟩ := copy_calls c body disk 0
    split
    · rename_i hc; rw [hc] at h; exact ⟨sizes, h⟩
    · rename_i hc; rw [hc] at h; exact ⟨sizes, h⟩

theorem fileHandler_onlyReads (root : Bytes) (errText : Err → Bytes) : OnlyReads (fileHandler c σ root errText) :=
  fileHandlerOn_onlyReads (Sink.mk [] 0 []) root errText

end

end HttpIo
