import Verif.Output.Files
import Verif.Output.Props
import Verif.Csv.Props
import Verif.Py.ImportProps

/-! Property C134 (what is on disk after any sequence of output calls). -/

namespace Blitzdg.Output

open Blitzdg.Sparse (DMat)

variable {α β : Type}

/-- A sequence of calls of `writeFieldsToFiles`: the fields and the step number of each. -/
abbrev History (α : Type) := List (List (Str × DMat α) × Int)

/-- The directory after the calls. -/
def after (ext : Str) (render : Str → DMat α → β) (d : Disk β) (h : History α) : Disk β :=
  h.foldl (fun d c => writeFields ext render d c.1 c.2) d

/-- The fields given under `name` for step `step`, in order. -/
def given (h : History α) (name : Str) (step : Int) : List (DMat α) :=
  h.flatMap fun c => if c.2 = step then (c.1.filter fun kv => kv.1 = name).map Prod.snd else []

/-- All names and steps of a history. -/
def Mentions (h : History α) (name : Str) (step : Int) : Prop := ∃ c ∈ h, c.2 = step ∧ ∃ kv ∈ c.1, kv.1 = name

theorem saveFile_writable (d : Disk β) (n : Str) (c : β) : (saveFile d n c).writable = d.writable := by
  unfold saveFile; split <;> rfl

theorem saveFile_file (d : Disk β) (n m : Str) (c : β) : (saveFile d n c).file m = if d.writable n = true ∧ m = n then some c else d.file m := by
  unfold saveFile
  by_cases h : d.writable n = true
  · simp [h]
  · simp [h]

theorem writeFields_writable (ext : Str) (render : Str → DMat α → β) (fields : List (Str × DMat α)) (t : Int) : ∀ d : Disk β, (writeFields ext render d fields t).writable = d.writable := by
  unfold writeFields
  induction fields with
  | nil => intro d; rfl
  | cons kv l ih => intro d; rw [List.foldl_cons, ih, saveFile_writable]

theorem writeFields_file (ext : Str) (render : Str → DMat α → β) (name : Str) (t : Int) (fields : List (Str × DMat α)) : ∀ d : Disk β,
    (∀ kv ∈ fields, d.writable (generateFileName ext kv.1 t) = true) →
    (writeFields ext render d fields t).file (generateFileName ext name t) =
      match ((fields.filter fun kv => kv.1 = name).map Prod.snd).getLast? with
      | some f => some (render name f)
      | none => d.file (generateFileName ext name t) := by
  induction fields with
  | nil => intro d _; rfl
  | cons kv l ih =>
    intro d hw
    have e : writeFields ext render d (kv :: l) t = writeFields ext render (saveFile d (generateFileName ext kv.1 t) (render kv.1 kv.2)) l t := rfl
    rw [e, ih _ (fun x hx => by rw [saveFile_writable]; exact hw x (List.mem_cons_of_mem _ hx)), saveFile_file]
    have inj : generateFileName ext name t = generateFileName ext kv.1 t ↔ kv.1 = name := by
      constructor
      · intro h
        unfold generateFileName at h
        exact (List.append_cancel_right (List.append_cancel_right h)).symm
      · intro h; rw [h]
    by_cases hk : kv.1 = name
    · rw [List.filter_cons_of_pos (by simpa using hk), List.map_cons, List.getLast?_cons]
      rw [if_pos ⟨hw kv (List.mem_cons_self ..), inj.2 hk⟩, hk]
      cases ((l.filter fun kv => kv.1 = name).map Prod.snd).getLast? <;> rfl
    · rw [List.filter_cons_of_neg (by simpa using hk), if_neg (fun h => hk (inj.1 h.2))]

theorem writeFields_other (ext : Str) (render : Str → DMat α → β) (n : Str) (t : Int) (fields : List (Str × DMat α)) : ∀ d : Disk β,
    (∀ kv ∈ fields, generateFileName ext kv.1 t ≠ n) → (writeFields ext render d fields t).file n = d.file n := by
  induction fields with
  | nil => intro d _; rfl
  | cons kv l ih =>
    intro d h
    have e : writeFields ext render d (kv :: l) t = writeFields ext render (saveFile d (generateFileName ext kv.1 t) (render kv.1 kv.2)) l t := rfl
    rw [e, ih _ (fun x hx => h x (List.mem_cons_of_mem _ hx)), saveFile_file, if_neg]
    exact fun hn => h kv (List.mem_cons_self ..) hn.2.symm

/-- **C134 (partial).** After any sequence of output calls with step numbers from 0 to 9999999, in a directory that can be written to, the file of field `name` and step `step`
shows the field given last under that name for that step; if there was none, it is what it was before.
Missing: larger and negative step numbers, for which the fields of different names overwrite each other (`C134_collision`), and directories that cannot be written to (`C134_silent`). -/
theorem C134_last_partial (ext : Str) (render : Str → DMat α → β) (name : Str) (step : Int) (h0 : 0 ≤ step) (h7 : step < 10 ^ 7) (h : History α) : ∀ (d : Disk β)
    (_ : ∀ c ∈ h, 0 ≤ c.2 ∧ c.2 < 10 ^ 7) (_ : ∀ n, d.writable n = true),
    (after ext render d h).file (generateFileName ext name step) =
      match (given h name step).getLast? with
      | some f => some (render name f)
      | none => d.file (generateFileName ext name step) := by
  induction h with
  | nil => intro d _ _; rfl
  | cons c h ih =>
    intro d hs hw
    have e : after ext render d (c :: h) = after ext render (writeFields ext render d c.1 c.2) h := rfl
    have e2 : given (c :: h) name step = (if c.2 = step then (c.1.filter fun kv => kv.1 = name).map Prod.snd else []) ++ given h name step := rfl
    rw [e, ih _ (fun x hx => hs x (List.mem_cons_of_mem _ hx)) (fun n => by rw [writeFields_writable]; exact hw n), e2]
    by_cases hc : c.2 = step
    · rw [if_pos hc, ← hc, writeFields_file _ _ _ _ _ _ (fun kv _ => hw _)]
      rw [List.getLast?_append]
      cases (given h name c.2).getLast? <;> rfl
    · rw [if_neg hc, List.nil_append, writeFields_other]
      intro kv _ hn
      have := hs c (List.mem_cons_self ..)
      exact hc ((C55_names_partial ext kv.1 name c.2 step this.1 this.2 h0 h7).1.1 hn).2

/-- **C134.** Files that are not the file of any of the given fields and steps are left alone, whatever the step numbers. -/
theorem C134_others (ext : Str) (render : Str → DMat α → β) (n : Str) (h : History α) : ∀ (d : Disk β)
    (_ : ∀ name step, Mentions h name step → generateFileName ext name step ≠ n), (after ext render d h).file n = d.file n := by
  induction h with
  | nil => intro d _; rfl
  | cons c h ih =>
    intro d hn
    have e : after ext render d (c :: h) = after ext render (writeFields ext render d c.1 c.2) h := rfl
    rw [e, ih _ (fun name step ⟨c', hc', hr⟩ => hn name step ⟨c', List.mem_cons_of_mem _ hc', hr⟩), writeFields_other]
    intro kv hkv
    exact hn kv.1 c.2 ⟨c, List.mem_cons_self .., rfl, kv, hkv, rfl⟩

/-- **C134, read back.** After any sequence of CSV output calls with step numbers from 0 to 9999999, `csvread` on the file of a field and step returns the rows, the columns and the
entries (as text) of the field given last. -/
theorem C134_readback (fmt : α → Str) (name : Str) (step : Int) (h0 : 0 ≤ step) (h7 : step < 10 ^ 7) (h : History α) (d : Disk Str)
    (hs : ∀ c ∈ h, 0 ≤ c.2 ∧ c.2 < 10 ^ 7) (hw : ∀ n, d.writable n = true) (f : DMat α) (hf : (given h name step).getLast? = some f) (hr : 0 < f.rows) (hc : 0 < f.cols)
    (hfmt : ∀ i k, fmt (f.at' i k) ≠ [] ∧ ∀ c ∈ fmt (f.at' i k), Csv.isSpace c = false) :
    Csv.csvread some ((h.foldl (fun d c => csvWriteFields fmt d c.1 c.2) d).file (generateFileName ".dat".toList name step)) 0 [' '] =
      .ok (f.rows, (f.cols : Int), (List.range f.rows).flatMap fun i => (List.range f.cols).map fun k => fmt (f.at' i k)) := by
  have := C134_last_partial ".dat".toList (fun _ f => Csv.writeField fmt ' ' f.rows f.cols f.at') name step h0 h7 h d hs hw
  rw [hf] at this
  have e : h.foldl (fun d c => csvWriteFields fmt d c.1 c.2) d = after ".dat".toList (fun _ f => Csv.writeField fmt ' ' f.rows f.cols f.at') d h := rfl
  rw [e, this]
  exact Csv.C56_roundtrip_partial fmt ' ' (Or.inl rfl) f.rows f.cols hr hc f.at' hfmt

theorem writeDict_loop [Zero α] (ext : Str) (render : Str → DMat α → β) (t : Int) (arrays : List (Py.View α)) (ms : List (DMat α)) (hl : ms.length = arrays.length)
    (hm : ∀ i (h : i < arrays.length), Py.fromNumpy arrays[i] = .ok (ms[i]'(hl ▸ h))) (names : List Str) : ∀ (d : Disk β) (k : Nat), k + names.length = arrays.length →
    loopM (dictStep ext render arrays t) (d, k) names = .ok (writeFields ext render d (names.zip (ms.drop k)) t, k + names.length) := by
  induction names with
  | nil => intro d k _; rfl
  | cons n ns ih =>
    intro d k hk
    rw [List.length_cons] at hk
    have hk' : k < arrays.length := by omega
    have h1 : dictStep ext render arrays t (d, k) n = .ok (saveFile d (generateFileName ext n t) (render n (ms[k]'(hl ▸ hk'))), k + 1) := by
      have ha : atVec arrays k = .ok arrays[k] := by unfold atVec; rw [List.getElem?_eq_getElem hk']
      unfold dictStep
      simp only [ha, Out.bind_ok, hm k hk', Out.pure_eq]
    rw [loopM_cons, h1, Out.bind_ok, ih _ _ (by omega)]
    have h2 : ms.drop k = ms[k]'(hl ▸ hk') :: ms.drop (k + 1) := (List.drop_eq_getElem_cons (hl ▸ hk'))
    rw [h2, List.zip_cons_cons, List.length_cons]
    have e : k + 1 + ns.length = k + (ns.length + 1) := by omega
    rw [e]
    rfl

/-- **C134, from Python.** A dictionary of contiguous arrays is written like the map of the fields with the same entries: there are matrices, entry by entry those of the arrays, that
are written under the respective names. -/
theorem C134_dict [Zero α] (ext : Str) (render : Str → DMat α → β) (d : Disk β) (t : Int) (entries : List (Str × Py.View α)) (hc : ∀ e ∈ entries, e.2.Contiguous) :
    ∃ fields : List (Str × DMat α), writeDict ext render d (entries.map Prod.fst) (entries.map Prod.snd) t = .ok (writeFields ext render d fields t) ∧
      List.Forall₂ (fun e f => f.1 = e.1 ∧ Py.SameView f.2 e.2) entries fields := by
  obtain ⟨ms, hms⟩ : ∃ ms : List (DMat α), List.Forall₂ (fun e m => Py.fromNumpy e.2 = .ok m ∧ Py.SameView m e.2) entries ms := by
    induction entries with
    | nil => exact ⟨[], .nil⟩
    | cons e l ih =>
      obtain ⟨ms, h⟩ := ih (fun x hx => hc x (List.mem_cons_of_mem _ hx))
      obtain ⟨m, h1, h2⟩ := Py.C95_contiguous_partial e.2 (hc e (List.mem_cons_self ..))
      exact ⟨m :: ms, .cons ⟨h1, h2⟩ h⟩
  have hl : ms.length = entries.length := hms.length_eq.symm
  refine ⟨(entries.map Prod.fst).zip ms, ?_, ?_⟩
  · unfold writeDict
    rw [writeDict_loop ext render t (entries.map Prod.snd) ms (by rw [hl, List.length_map]) _ _ d 0 (by simp)]
    · rfl
    · intro i hi
      rw [List.length_map] at hi
      have := (List.forall₂_iff_get.1 hms).2 i hi (hl ▸ hi)
      simpa using this.1
  · clear hc hl
    induction hms with
    | nil => exact .nil
    | cons h _ ih => exact .cons ⟨rfl, h.2⟩ ih

/-- **C134 refuted beyond seven digits.** Writing field "u1" for step 0 replaces the file of field "u" for step 10000000. -/
theorem C134_collision (f g : DMat α) (render : Str → DMat α → β) (d : Disk β) (hw : ∀ n, d.writable n = true) :
    (after ".dat".toList render d [([("u".toList, f)], 10000000), ([("u1".toList, g)], 0)]).file (generateFileName ".dat".toList "u".toList 10000000) = some (render "u1".toList g) := by
  show (saveFile (saveFile d _ _) (generateFileName ".dat".toList "u1".toList 0) (render "u1".toList g)).file _ = _
  rw [saveFile_file, if_pos]
  exact ⟨by rw [saveFile_writable]; exact hw _, C55_collision⟩

/-- **C134 refuted for directories that cannot be written to.** The calls return as if they had written. -/
theorem C134_silent (ext : Str) (render : Str → DMat α → β) (h : History α) : ∀ (d : Disk β), (∀ n, d.writable n = false) → after ext render d h = d := by
  induction h with
  | nil => intro d _; rfl
  | cons c h ih =>
    intro d hw
    have e : after ext render d (c :: h) = after ext render (writeFields ext render d c.1 c.2) h := rfl
    have : ∀ fields : List (Str × DMat α), writeFields ext render d fields c.2 = d := by
      intro fields
      induction fields with
      | nil => rfl
      | cons kv l ih' =>
        have e' : writeFields ext render d (kv :: l) c.2 = writeFields ext render (saveFile d (generateFileName ext kv.1 c.2) (render kv.1 kv.2)) l c.2 := rfl
        have es : saveFile d (generateFileName ext kv.1 c.2) (render kv.1 kv.2) = d := by unfold saveFile; rw [hw]; rfl
        rw [e', es, ih']
    rw [e, this, ih d hw]

/-- Two fields written twice: the second call for step 1 counts. -/
example : let f : Int → DMat Int := fun c => ⟨1, 2, fun _ j => c + j⟩
    let h : History Int := [([("h".toList, f 1), ("hu".toList, f 2)], 0), ([("h".toList, f 3)], 1), ([("h".toList, f 4), ("hu".toList, f 5)], 1)]
    (∀ c ∈ h, 0 ≤ c.2 ∧ c.2 < 10 ^ 7) ∧ (given h "h".toList 1).map (fun m => m.at' 0 0) = [3, 4] ∧ (given h "h".toList 0).map (fun m => m.at' 0 0) = [1] ∧
    (csvWriteFields intText ⟨fun _ => none, fun _ => true⟩ [("h".toList, f 7)] 12).file "h0000012.dat".toList = some "7 8 \n".toList := by
  refine ⟨?_, by decide +kernel, by decide +kernel, by decide +kernel⟩
  intro c hc
  simp only [List.mem_cons, List.not_mem_nil, or_false] at hc
  rcases hc with rfl | rfl | rfl <;> decide

end Blitzdg.Output
