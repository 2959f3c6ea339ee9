import Verif.Model.Ops
import Verif.Model.Diff
import Verif.Model.Unify
/-! # The part of `_run` between loading the maps and formatting

`/repo/esp_idf_size/main.py:121-139`; `cur` and `ref` are what `memorymap.get` returned. -/
namespace EspSize

def prepare (args : Args) (cur ref : MemMap) : Except Err MemMap := do
  let cur := if args.showUnused then cur else removeUnused cur          -- main.py:121-122
  let cur := if args.useFlashSize then cur else ignoreFlashSize cur     -- main.py:123-124
  let cur ←
    if truthy args.diff then do                                         -- main.py:125
      let ref := if args.showUnused then ref else removeUnused ref      -- main.py:127-128
      -- main.py:129-130: `ignore_flash_size(memmap)`, not `memmap_ref`
      let cur := if args.useFlashSize then cur else ignoreFlashSize cur
      diff cur ref                                                      -- main.py:131
    else .ok cur
  .ok (if args.unify then unify cur else cur)                           -- main.py:138-139

end EspSize
