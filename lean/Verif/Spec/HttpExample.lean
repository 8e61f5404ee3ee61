import Verif.Spec.Http
/-! Two header tables that keep the contract `Core.Sound`: one finds the first of several fields with the same name, one the last. -/

namespace OatWS.Http

/-- The maximal runs of token characters. `run`: the run so far, reversed. -/
def runs : Str → Str → List Str
  | run, [] => if run = [] then [] else [run.reverse]
  | run, c :: rest =>
    if tchar c then runs (c :: run) rest
    else if run = [] then runs [] rest else run.reverse :: runs [] rest

theorem runs_token (t : Str) (ht : ∀ c ∈ t, tchar c = true) (run rest : Str) : runs run (t ++ rest) = runs (t.reverse ++ run) rest := by
  induction t generalizing run with
  | nil => rfl
  | cons c t ih =>
    rw [List.cons_append, runs, if_pos (ht c (by simp)), ih (fun d hd => ht d (by simp [hd]))]
    simp

theorem runs_spaces (n : Nat) (rest : Str) : runs [] (List.replicate n 32 ++ rest) = runs [] rest := by
  induction n with
  | zero => rfl
  | succ n ih =>
    rw [List.replicate_succ, List.cons_append, runs, if_neg (by decide), if_pos rfl, ih]

theorem runs_tokenList (spaces : Nat → Nat) (ts : List Str) (h : ∀ t ∈ ts, IsToken t) : runs [] (tokenList spaces ts) = ts := by
  induction ts generalizing spaces with
  | nil => rfl
  | cons t ts ih =>
    obtain ⟨hne, hch⟩ := h t (by simp)
    have hrev : t.reverse ≠ [] := by simpa using hne
    cases ts with
    | nil =>
      have := runs_token t hch [] []
      rw [List.append_nil, List.append_nil] at this
      show runs [] t = [t]
      rw [this, runs, if_neg hrev, List.reverse_reverse]
    | cons u ts =>
      show runs [] (t ++ [44] ++ List.replicate (spaces 0) 32 ++ tokenList _ (u :: ts)) = _
      rw [List.append_assoc, List.append_assoc, runs_token t hch, List.append_nil, List.cons_append, List.nil_append, runs,
        if_neg (by decide), if_neg hrev, List.reverse_reverse, runs_spaces, ih _ (fun v hv => h v (by simp [hv]))]

/-- Finds the first field. -/
def firstCore : Core := { get := fun h n => (values h n).head?, tokens := runs [] }

/-- Finds the last field. -/
def lastCore : Core := { get := fun h n => (values h n).getLast?, tokens := runs [] }

theorem firstCore_sound : firstCore.Sound where
  get_some := fun h n v hv => List.mem_of_head? hv
  get_none := fun h n hv => List.head?_eq_none_iff.mp hv
  tokens_list := fun spaces ts t hts _ => by
    show (∃ u ∈ runs [] (tokenList spaces ts), _) ↔ _
    rw [runs_tokenList spaces ts hts]

theorem lastCore_sound : lastCore.Sound where
  get_some := fun h n v hv => List.mem_of_getLast? hv
  get_none := fun h n hv => List.getLast?_eq_none_iff.mp hv
  tokens_list := fun spaces ts t hts _ => by
    show (∃ u ∈ runs [] (tokenList spaces ts), _) ↔ _
    rw [runs_tokenList spaces ts hts]

end OatWS.Http
