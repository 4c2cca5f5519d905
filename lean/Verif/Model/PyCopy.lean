import Verif.Model.Py

/-!
# Model of `copy.copy` and of calling `__del__` on objects of the Python wrapper

No class of the wrapper defines `__copy__`, `__deepcopy__` or `__reduce__`, so that `copy.copy` makes a new object with the same
fields without calling `__init__`; the handle (`_graph`, `_matrix`, `_ptr`) is shared.  (`copy.deepcopy` and `pickle` raise `ValueError`
because `ctypes` refuses to copy structures that contain pointers; they are not modelled.)
-/

namespace Verif.PyWorld

/-- `copy.copy` of object `i`: the fields are those of the original. `__init__.py:265, 471-472, 501-507, 527-528, 557-563, 582, 688,
742-743, 772-778`. -/
def copy (w : PyWorld) (i : Nat) : PyRes PyWorld PyVal :=
  match w.objs[i]?.join with
  | some o => .ok (.ref w.objs.length) ⟨w.mem, w.objs ++ [some o]⟩
  | none => .raised .NameError w

/-- `x.__del__()` called by the program: the C object is freed, the Python object stays.  Iterators have no such method.
`__init__.py:269-270, 474-475, 530-531, 584-585, 690-691, 745-746`. -/
def callDel (E : Ctx) (w : PyWorld) (i : Nat) : PyRes PyWorld PyVal :=
  match w.objs[i]?.join with
  | some o =>
    if o.listRef.isSome then .raised .AttributeError w else
      match o.del E w.mem with
      | .ok _ h => .ok .none ⟨h, w.objs⟩
      | .raised e h => .raised e ⟨h, w.objs⟩
      | .ub => .ub
      | .abort => .abort
  | none => .raised .NameError w

end Verif.PyWorld
