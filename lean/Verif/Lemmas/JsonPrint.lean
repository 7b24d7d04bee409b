import Verif.Lemmas.JsonGrammar
import Verif.Lemmas.F64Order
/-! What is written is in the JSON grammar, on one line, and is kept as it is when it is read. -/

namespace JsonText

open JsonText.Spec

/-! ### Depth -/

mutual
theorem val_depth {N : Floats} : ∀ {d : Nat} {j : Json} {t : Str}, Val N d j t → depth j ≤ d
  | _, _, _, .null d => by simp [depth]
  | _, _, _, .yes d => by simp [depth]
  | _, _, _, .no d => by simp [depth]
  | _, _, _, .num d h => by simp [depth]
  | _, _, _, .str d h => by simp [depth]
  | _, _, _, .arr0 d h => by simp [depth, depthItems]
  | _, _, _, .arr h => by rw [depth]; have := items_depth h; omega
  | _, _, _, .obj0 d h => by simp [depth, depthMembers]
  | _, _, _, .obj h => by rw [depth]; have := members_depth h; omega
theorem items_depth {N : Floats} : ∀ {d : Nat} {js : List Json} {t : Str}, Items N d js t → depthItems js ≤ d
  | _, _, _, .one _ h _ => by simp only [depthItems]; have := val_depth h; omega
  | _, _, _, .cons _ h _ hi => by simp only [depthItems]; have := val_depth h; have := items_depth hi; omega
theorem members_depth {N : Floats} : ∀ {d : Nat} {ms : List (Str × Json)} {t : Str}, Members N d ms t → depthMembers ms ≤ d
  | _, _, _, .one _ _ _ _ h _ => by simp only [depthMembers]; have := val_depth h; omega
  | _, _, _, .cons _ _ _ _ h _ hi => by simp only [depthMembers]; have := val_depth h; have := members_depth hi; omega
end

mutual
theorem val_mono {N : Floats} : ∀ {d : Nat} {j : Json} {t : Str}, Val N d j t → ∀ d', d ≤ d' → Val N d' j t
  | _, _, _, .null _, d', _ => .null d'
  | _, _, _, .yes _, d', _ => .yes d'
  | _, _, _, .no _, d', _ => .no d'
  | _, _, _, .num _ h, d', _ => .num d' h
  | _, _, _, .str _ h, d', _ => .str d' h
  | _, _, _, .arr0 _ h, 0, hd => absurd hd (by omega)
  | _, _, _, .arr0 _ h, d' + 1, _ => .arr0 d' h
  | _, _, _, .arr h, 0, hd => absurd hd (by omega)
  | _, _, _, .arr h, d' + 1, hd => .arr (items_mono h d' (by omega))
  | _, _, _, .obj0 _ h, 0, hd => absurd hd (by omega)
  | _, _, _, .obj0 _ h, d' + 1, _ => .obj0 d' h
  | _, _, _, .obj h, 0, hd => absurd hd (by omega)
  | _, _, _, .obj h, d' + 1, hd => .obj (members_mono h d' (by omega))
theorem items_mono {N : Floats} : ∀ {d : Nat} {js : List Json} {t : Str}, Items N d js t → ∀ d', d ≤ d' → Items N d' js t
  | _, _, _, .one h1 h h2, d', hd => .one h1 (val_mono h d' hd) h2
  | _, _, _, .cons h1 h h2 hi, d', hd => .cons h1 (val_mono h d' hd) h2 (items_mono hi d' hd)
theorem members_mono {N : Floats} : ∀ {d : Nat} {ms : List (Str × Json)} {t : Str}, Members N d ms t → ∀ d', d ≤ d' → Members N d' ms t
  | _, _, _, .one h0 hk h1 h2 h h3, d', hd => .one h0 hk h1 h2 (val_mono h d' hd) h3
  | _, _, _, .cons h0 hk h1 h2 h h3 hi, d', hd => .cons h0 hk h1 h2 (val_mono h d' hd) h3 (members_mono hi d' hd)
end

/-- A text stands for one document. -/
theorem text_unique {N : Floats} {d d' : Nat} {j j' : Json} {s : Str} (h : Text N d j s) (h' : Text N d' j' s) : j = j' := by
  obtain ⟨w1, t, w2, rfl, h1, hv, h2⟩ := h
  obtain ⟨w1', t', w2', e, h1', hv', h2'⟩ := h'
  have st : ∀ {w : Str}, Blank w → Stop w := fun {w} hw => by have := stop_blank hw stop_nil; rwa [List.append_nil] at this
  have a := value_of N (2 * (t.length + t'.length)) (val_mono hv (max d d') (by omega)) w1 w2 (by omega) h1 (st h2)
  have b := value_of N (2 * (t.length + t'.length)) (val_mono hv' (max d d') (by omega)) w1' w2' (by omega) h1' (st h2')
  rw [e, b] at a
  simp only [Option.some.injEq, Prod.mk.injEq] at a
  exact a.1.symm

/-! ### What is written is in the grammar -/

theorem blank_nil : Blank [] := fun _ h => by simp at h

mutual
theorem Spec.Sound.fits {N : Floats} : ∀ {j : Json}, Sound N j → Fits N j
  | _, .null => .null
  | _, .bool b => .bool b
  | _, .int h => .int h
  | _, .float h => .float h
  | _, .str s => .str s
  | _, .arr h => .arr (Spec.SoundItems.fits h)
  | _, .obj h _ => .obj (Spec.SoundMembers.fits h)
theorem Spec.SoundItems.fits {N : Floats} : ∀ {js : List Json}, SoundItems N js → FitsItems N js
  | _, .nil => .nil
  | _, .cons h hs => .cons (Spec.Sound.fits h) (Spec.SoundItems.fits hs)
theorem Spec.SoundMembers.fits {N : Floats} : ∀ {ms : List (Str × Json)}, SoundMembers N ms → FitsMembers N ms
  | _, .nil => .nil
  | _, .cons h hs => .cons (Spec.Sound.fits h) (Spec.SoundMembers.fits hs)
end

mutual
theorem print_val {N : Floats} : ∀ {j : Json}, Fits N j → ∀ d, depth j ≤ d → Val N d j (print N j)
  | _, .null, d, _ => by rw [print]; exact .null d
  | _, .bool true, d, _ => by rw [print]; exact .yes d
  | _, .bool false, d, _ => by rw [print]; exact .no d
  | _, .int h, d, _ => by rw [print]; exact .num d (.int _ h)
  | _, .float h, d, _ => by rw [print]; exact .num d (.float _ _ h.1 h.2.1 h.2.2)
  | _, .str s, d, _ => by rw [print, quote]; exact .str d (quoted_escape s)
  | _, .arr .nil, 0, hd => absurd hd (by rw [depth]; omega)
  | _, .arr .nil, d + 1, _ => by rw [print]; exact .arr0 d blank_nil
  | _, .arr (.cons h hs), 0, hd => absurd hd (by rw [depth]; omega)
  | _, .arr (.cons (j := j) (js := js) h hs), d + 1, hd => by
    simp only [depth, depthItems] at hd
    obtain ⟨t, e, hi⟩ := print_items h hs d (by omega)
    rw [print, e]
    exact .arr hi
  | _, .obj .nil, 0, hd => absurd hd (by rw [depth]; omega)
  | _, .obj .nil, d + 1, _ => by rw [print]; exact .obj0 d blank_nil
  | _, .obj (.cons h hs), 0, hd => absurd hd (by rw [depth]; omega)
  | _, .obj (.cons (k := k) (j := j) (ms := ms) h hs), d + 1, hd => by
    simp only [depth, depthMembers] at hd
    obtain ⟨t, e, hi⟩ := print_members (k := k) h hs d (by omega)
    rw [print, e]
    exact .obj hi
theorem print_items {N : Floats} : ∀ {j : Json} {js : List Json}, Fits N j → FitsItems N js → ∀ d, max (depth j) (depthItems js) ≤ d →
    ∃ t, print N j ++ printItems N js = t ++ [']'] ∧ Items N d (j :: js) t
  | j, _, h, .nil, d, hd => by
    refine ⟨print N j, by rw [printItems], ?_⟩
    have := Items.one blank_nil (print_val h d (by omega)) blank_nil
    simpa using this
  | j, _, h, .cons (j := k) (js := ks) hk hs, d, hd => by
    simp only [depthItems] at hd
    obtain ⟨t, e, hi⟩ := print_items hk hs d (by omega)
    refine ⟨print N j ++ ',' :: t, by rw [printItems, e]; simp, ?_⟩
    have := Items.cons blank_nil (print_val h d (by omega)) blank_nil hi
    simpa using this
theorem print_members {N : Floats} : ∀ {k : Str} {j : Json} {ms : List (Str × Json)}, Fits N j → FitsMembers N ms → ∀ d, max (depth j) (depthMembers ms) ≤ d →
    ∃ t, quote k ++ ':' :: (print N j ++ printMembers N ms) = t ++ ['}'] ∧ Members N d ((k, j) :: ms) t
  | k, j, _, h, .nil, d, hd => by
    refine ⟨quote k ++ ':' :: print N j, by rw [printMembers]; simp, ?_⟩
    have := Members.one blank_nil (quoted_escape k) blank_nil blank_nil (print_val h d (by omega)) blank_nil
    simpa [quote] using this
  | k, j, _, h, .cons (k := k') (j := j') (ms := ms) hk hs, d, hd => by
    simp only [depthMembers] at hd
    obtain ⟨t, e, hi⟩ := print_members (k := k') hk hs d (by omega)
    refine ⟨quote k ++ ':' :: (print N j ++ ',' :: t), by rw [printMembers, e]; simp, ?_⟩
    have := Members.cons blank_nil (quoted_escape k) blank_nil blank_nil (print_val h d (by omega)) blank_nil hi
    simpa [quote] using this
end

theorem print_text {N : Floats} {j : Json} (h : Fits N j) {d : Nat} (hd : depth j ≤ d) : Text N d j (print N j) :=
  ⟨[], print N j, [], by simp, blank_nil, print_val h d hd, blank_nil⟩

/-! ### Members in order -/

theorem objInsert_last (k : Str) (v : Json) : ∀ acc : List (Str × Json), (∀ m ∈ acc, Str.lt m.1 k = true) → objInsert k v acc = acc ++ [(k, v)]
  | [], _ => rfl
  | (k', v') :: acc, h => by
    have hk := h (k', v') (by simp)
    simp only at hk
    have h1 : k ≠ k' := by rintro rfl; rw [Str.lt_irrefl] at hk; exact absurd hk (by simp)
    have h2 : ¬ Str.lt k k' = true := fun h => by
      have := Str.lt_trans h hk
      rw [Str.lt_irrefl] at this
      exact absurd this (by simp)
    rw [objInsert, if_neg h1, if_neg h2, objInsert_last k v acc fun m hm => h m (by simp [hm])]
    rfl

mutual
theorem norm_sound {N : Floats} : ∀ {j : Json}, Sound N j → norm j = j
  | _, .null => rfl
  | _, .bool _ => rfl
  | _, .int _ => rfl
  | _, .float _ => rfl
  | _, .str _ => rfl
  | _, .arr h => by rw [norm, normItems_sound h]
  | _, .obj h ho => by
    rw [norm, normMembers_sound h [] (by simpa using ho)]
    rfl
theorem normItems_sound {N : Floats} : ∀ {js : List Json}, SoundItems N js → normItems js = js
  | _, .nil => rfl
  | _, .cons h hs => by rw [normItems, norm_sound h, normItems_sound hs]
theorem normMembers_sound {N : Floats} : ∀ {ms : List (Str × Json)}, SoundMembers N ms → ∀ acc : List (Str × Json),
    ((acc ++ ms).map Prod.fst).Pairwise (fun a b => Str.lt a b = true) → normMembers acc ms = acc ++ ms
  | _, .nil, acc, _ => by rw [normMembers, List.append_nil]
  | _, .cons (k := k) (j := j) (ms := ms) h hs, acc, ho => by
    have hlast : ∀ m ∈ acc, Str.lt m.1 k = true := by
      intro m hm
      rw [List.map_append, List.pairwise_append] at ho
      exact ho.2.2 m.1 (List.mem_map_of_mem hm) k (by simp)
    rw [normMembers, norm_sound h, objInsert_last k j acc hlast, normMembers_sound hs (acc ++ [(k, j)]) (by simpa using ho)]
    simp
end

/-! ### One line -/

/-- No control characters. -/
def OneLine (s : Str) : Prop := ∀ c ∈ s, 32 ≤ c.toNat

theorem OneLine.append {a b : Str} (ha : OneLine a) (hb : OneLine b) : OneLine (a ++ b) := fun c hc => by
  rcases List.mem_append.1 hc with h | h
  · exact ha c h
  · exact hb c h

theorem OneLine.cons {c : Char} {s : Str} (hc : 32 ≤ c.toNat) (hs : OneLine s) : OneLine (c :: s) := fun d hd => by
  rcases List.mem_cons.1 hd with rfl | h
  · exact hc
  · exact hs d h

theorem oneLine_digits {s : Str} (h : ∀ c ∈ s, '0' ≤ c ∧ c ≤ '9') : OneLine s := fun c hc => by
  have a : 48 ≤ c.toNat := (h c hc).1
  omega

theorem oneLine_nil : OneLine [] := fun c h => by simp at h

theorem oneLine_sign {s : Str} (h : s = [] ∨ s = c!"+" ∨ s = c!"-") : OneLine s := by
  rcases h with rfl | rfl | rfl
  · exact oneLine_nil
  · exact .cons (by decide) oneLine_nil
  · exact .cons (by decide) oneLine_nil

theorem oneLine_number {t : Str} (h : NumberText t) : OneLine t := by
  obtain ⟨sign, ds, f, e, hs, hd, hf, he, rfl⟩ := h
  refine .append (oneLine_sign (by rcases hs with h | h <;> simp [h])) (.append (oneLine_digits hd.1.2) (.append ?_ ?_))
  · cases hf with
    | none => exact oneLine_nil
    | some h => exact .cons (by decide) (oneLine_digits h.2)
  · cases he with
    | none => exact oneLine_nil
    | some hc hs h => exact .cons (by rcases hc with rfl | rfl <;> decide) (.append (oneLine_sign hs) (oneLine_digits h.2))

theorem oneLine_int (i : Int) : OneLine (Str.showInt i) := by
  obtain ⟨neg, ds, hd, e⟩ := showInt_parts i
  rw [e]
  exact .append (oneLine_sign (by cases neg; exact .inl rfl; exact .inr (.inr rfl))) (oneLine_digits hd.1.2)

theorem oneLine_escape (c : Char) : OneLine (escape c) := by
  have hd : ∀ n : Fin 16, 32 ≤ (Nat.digitChar n.val).toNat := by decide
  unfold escape
  by_cases h1 : c = '"'
  · rw [if_pos h1]; exact .cons (by decide) (.cons (by decide) oneLine_nil)
  rw [if_neg h1]
  by_cases h2 : c = '\\'
  · rw [if_pos h2]; exact .cons (by decide) (.cons (by decide) oneLine_nil)
  rw [if_neg h2]
  by_cases h3 : c = '\x08'
  · rw [if_pos h3]; exact .cons (by decide) (.cons (by decide) oneLine_nil)
  rw [if_neg h3]
  by_cases h4 : c = '\x0c'
  · rw [if_pos h4]; exact .cons (by decide) (.cons (by decide) oneLine_nil)
  rw [if_neg h4]
  by_cases h5 : c = '\n'
  · rw [if_pos h5]; exact .cons (by decide) (.cons (by decide) oneLine_nil)
  rw [if_neg h5]
  by_cases h6 : c = '\r'
  · rw [if_pos h6]; exact .cons (by decide) (.cons (by decide) oneLine_nil)
  rw [if_neg h6]
  by_cases h7 : c = '\t'
  · rw [if_pos h7]; exact .cons (by decide) (.cons (by decide) oneLine_nil)
  rw [if_neg h7]
  by_cases h8 : c.toNat < 32
  · rw [if_pos h8]
    exact .cons (by decide) (.cons (by decide) (.cons (by decide) (.cons (by decide)
      (.cons (hd ⟨c.toNat / 16, by omega⟩) (.cons (hd ⟨c.toNat % 16, by omega⟩) oneLine_nil)))))
  · rw [if_neg h8]; exact .cons (by omega) oneLine_nil

theorem oneLine_quote (s : Str) : OneLine (quote s) := by
  refine .cons (by decide) (.append ?_ (.cons (by decide) oneLine_nil))
  intro c hc
  obtain ⟨d, _, h⟩ := List.mem_flatMap.1 hc
  exact oneLine_escape d c h

mutual
theorem print_oneLine {N : Floats} : ∀ {j : Json}, Fits N j → OneLine (print N j)
  | _, .null => by rw [print]; intro c hc; revert c; decide
  | _, .bool true => by rw [print]; intro c hc; revert c; decide
  | _, .bool false => by rw [print]; intro c hc; revert c; decide
  | _, .int h => by rw [print]; exact oneLine_int _
  | _, .float h => by rw [print]; exact oneLine_number h.1
  | _, .str s => by rw [print]; exact oneLine_quote s
  | _, .arr .nil => by rw [print]; intro c hc; revert c; decide
  | _, .arr (.cons h hs) => by rw [print]; exact .cons (by decide) (.append (print_oneLine h) (printItems_oneLine hs))
  | _, .obj .nil => by rw [print]; intro c hc; revert c; decide
  | _, .obj (.cons h hs) => by
    rw [print]; exact .cons (by decide) (.append (oneLine_quote _) (.cons (by decide) (.append (print_oneLine h) (printMembers_oneLine hs))))
theorem printItems_oneLine {N : Floats} : ∀ {js : List Json}, FitsItems N js → OneLine (printItems N js)
  | _, .nil => by rw [printItems]; intro c hc; revert c; decide
  | _, .cons h hs => by rw [printItems]; exact .cons (by decide) (.append (print_oneLine h) (printItems_oneLine hs))
theorem printMembers_oneLine {N : Floats} : ∀ {ms : List (Str × Json)}, FitsMembers N ms → OneLine (printMembers N ms)
  | _, .nil => by rw [printMembers]; intro c hc; revert c; decide
  | _, .cons h hs => by
    rw [printMembers]; exact .cons (by decide) (.append (oneLine_quote _) (.cons (by decide) (.append (print_oneLine h) (printMembers_oneLine hs))))
end

end JsonText
